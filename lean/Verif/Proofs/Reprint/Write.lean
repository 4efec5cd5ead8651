import Verif.Proofs.Reprint.Rel
import Verif.Proofs.TextInv
/-!
# Printed expressions spell their tokens
-/
namespace Verif
open Spec Lexer

/-! ## Only level 0 differs from the others -/

theorem mode_level_succ (l : Nat) : PMode.level (.expr (l + 1)) = l + 1 := rfl

mutual
theorem pr_level (k : Nat) : ∀ s, pr (.expr (k + 1)) s = pr (.expr 1) s
  | .exprs l n => by
    unfold pr
    simp only [mode_level_succ, PMode.isChain, Nat.add_eq_zero_iff, Nat.succ_ne_self, one_ne_zero, and_false, if_false]
    rw [prCat_level (k + 1), prCat_level (0 + 1)]
  | .bin op l r u n => by
    unfold pr
    simp only [mode_level_succ, PMode.isChain, Nat.zero_lt_succ, decide_true]
    rw [pr_level (k + 1) l, pr_level (k + 1) r]
    rw [pr_level (0 + 1) l, pr_level (0 + 1) r]
  | .num _ | .str _ | .bool _ | .date _ | .undef | .chain _ _ _ _ | .method _ _ _ | .var _ _ _ | .item _ _ | .ternary _ _ _
  | .new _ _ | .assign _ _ | .nil | .ifS _ _ _ _ | .tryS _ _ | .throw _ | .ret _ | .brk | .cont | .loop _ _ _ _ _ | .goto _ | .label _ => by
    unfold pr; rfl
theorem prCat_level (k : Nat) : ∀ l, prCat (k + 1) l = prCat 1 l
  | [] => by unfold prCat; rfl
  | s :: l => by unfold prCat; rw [pr_level k s, prCat_level k l]
end

theorem pr_inner (k : Nat) (s : Stm) : pr (.expr (k + 1)) s = pr Place.inner.mode s := pr_level k s

variable [Letters]

/-! ## Gluing -/

/-- The text `w` writes the tokens `ks` in front of every text that satisfies `F`. -/
def Sp (dot : Bool) (w : List Char) (ks : List Key) (F : List Char → Prop) : Prop :=
  ∀ r ks', F r → Written false r ks' → Written dot (w ++ r) (ks ++ ks')

/-- What may follow any expression. -/
structure Stops (r : List Char) : Prop where
  word : WordEnds r
  number : NumberEnds r
  quote : NoQuoteNext r

def Any (_ : List Char) : Prop := True

theorem written_layout {dot : Bool} {l s : List Char} {ks : List Key} (hl : Layout l) (h : Written dot s ks) : Written dot (l ++ s) ks := by
  cases h with
  | done hf =>
    refine .done ?_
    cases hf with
    | layout h => exact .layout (hl.append h)
    | comment h h' => rw [← List.append_assoc]; exact .comment (hl.append h) h'
    | hash h h' => rw [← List.append_assoc]; exact .hash (hl.append h) h'
  | next h1 h2 h3 h4 =>
    rw [← List.append_assoc]
    exact .next (hl.append h1) h2 h3 h4

omit [Letters] in
theorem dotAfter_of {dot : Bool} {k : Key} (h : k ≠ word .dot) : dotAfter dot k = false := by
  simp [dotAfter, h]

theorem sp_lex {dot w k F} (h : Lexeme dot w k F) (hk : k ≠ word .dot) : Sp dot w [k] F := by
  intro r ks' hF hw
  have := Written.next (l := []) .nil h hF ((dotAfter_of (dot := dot) hk).symm ▸ hw)
  simpa using this

theorem Sp.weaken {dot w ks F G} (h : Sp dot w ks F) (hg : ∀ r, G r → F r) : Sp dot w ks G :=
  fun r ks' hr hw => h r ks' (hg r hr) hw

theorem Sp.stops {dot w ks} (h : Sp dot w ks WordEnds) : Sp dot w ks Stops := h.weaken fun _ h => h.word
theorem Sp.any {dot w ks F} (h : Sp dot w ks Any) : Sp dot w ks F := h.weaken fun _ _ => trivial

theorem Sp.append {dot a ks F b ks2 G} (h1 : Sp dot a ks F) (h2 : Sp false b ks2 G) (hb : ∀ r, G r → F (b ++ r)) :
    Sp dot (a ++ b) (ks ++ ks2) G := by
  intro r ks' hr hw
  have := h1 _ _ (hb r hr) (h2 r ks' hr hw)
  simpa [List.append_assoc] using this

theorem Sp.cons {dot a k F b ks2 G} (h1 : Sp dot a [k] F) (h2 : Sp false b ks2 G) (hb : ∀ r, G r → F (b ++ r)) :
    Sp dot (a ++ b) (k :: ks2) G := h1.append h2 hb

theorem Sp.layout {dot l w ks F} (hl : Layout l) (h : Sp dot w ks F) : Sp dot (l ++ w) ks F := by
  intro r ks' hr hw
  rw [List.append_assoc]
  exact written_layout hl (h r ks' hr hw)

omit [Letters] in
theorem layout_space : Layout [' '] := .blank (.inl rfl) .nil

theorem Sp.space {dot w ks F} (h : Sp dot w ks F) : Sp dot (' ' :: w) ks F := h.layout (l := [' ']) layout_space

theorem Sp.after {dot w ks F} {l : List Char} (h : Sp dot w ks F) (hl : Layout l) (hF : ∀ r, F (l ++ r)) : Sp dot (w ++ l) ks Any := by
  intro r ks' _ hw
  rw [List.append_assoc]
  exact h _ _ (hF r) (written_layout hl hw)

/-! ## What follows -/

theorem stops_mark {c : Char} {r : List Char} (h : c ∈ [')', '(', ',', '[', ']', ';', ':', '=']) : Stops (c :: r) := by
  have hall : ∀ c ∈ [')', '(', ',', '[', ']', ';', ':', '='], c.toNat < 128 ∧ (c.isAlphanum = false ∧ c ≠ '_') ∧ c ≠ '.' ∧ isSpace c = false ∧ c ≠ '"' := by
    decide
  obtain ⟨h1, h2, h3, h4, h5⟩ := hall c h
  exact ⟨wordEnds_ascii h1 h2, numberEnds_ascii h1 h2 h3, noQuote_cons (by rw [← isSpace_iff, h4]; decide) h5⟩

theorem stops_space {r : List Char} (h : NoQuoteNext r) : Stops (' ' :: r) :=
  ⟨wordEnds_ascii (by decide) (by decide), numberEnds_ascii (by decide) (by decide) (by decide), noQuote_blank (by decide) h⟩

theorem stops_newline {r : List Char} (h : NoQuoteNext r) : Stops ('\n' :: r) :=
  ⟨wordEnds_ascii (by decide) (by decide), numberEnds_ascii (by decide) (by decide) (by decide), noQuote_blank (by decide) h⟩

theorem stops_nil : Stops [] := ⟨nofun, nofun, noQuote_nil⟩

/-- Anything that begins with a character that is neither blank nor a quote. -/
theorem stops_spaceC {c : Char} {r : List Char} (h1 : isSpace c = false) (h2 : c ≠ '"') : Stops (' ' :: c :: r) :=
  stops_space (noQuote_cons (by rw [← isSpace_iff, h1]; decide) h2)

/-! ## Tokens -/

theorem sp_mark {dot c t} (h : (c, t) ∈ marks) (h1 : c ≠ '/') (h2 : t ≠ .dot) : Sp dot [c] [word t] Any := by
  have := sp_lex (dot := dot) (.mark h) (notDot (n := []) (v := .nil) h2)
  exact this.weaken fun r _ e => absurd e h1

theorem sp_name {dot n} (h : NameOk dot n) : Sp dot n [ident n] WordEnds :=
  sp_lex (.name h.1 h.2) (notDot (by decide))

theorem sp_dot {u ks F} (h : Sp true u ks F) : Sp false ('.' :: u) (word .dot :: ks) F := by
  intro r ks' hF hw
  have := Written.next (dot := false) (l := []) (w := ['.']) .nil (.mark (t := .dot) (by decide)) (fun e => absurd e (by decide)) (h r ks' hF hw)
  simpa using this

theorem sp_keyword {w : String} {t : Terminal} (hne : w.toList ≠ []) (h : ∀ c ∈ w.toList, 0x410 ≤ c.toNat ∧ c.toNat ≤ 0x44F)
    (hk : (String.ofList (w.toList.map lowerChar), t.kind) ∈ keywordTable)
    (hn : t ∉ [Terminal.ktoken_identifier, .kTrue, .kFalse, .kExecute]) (hd : t ≠ .dot) : Sp false w.toList [word t] WordEnds :=
  sp_lex (.keyword (rus_word hne h) (.keyword hk) hn) (notDot hd)

/-- `Не ` -/
theorem sp_not {w ks F} (h : Sp false w ks F) : Sp false ("Не ".toList ++ w) (word .kNot :: ks) F := by
  have h1 := (sp_keyword (w := "Не") (t := .kNot) (by decide) (by decide) (by decide +kernel) (by decide) (by decide)).after layout_space
    (fun r => wordEnds_ascii (c := ' ') (by decide) (by decide))
  exact h1.cons h (fun _ _ => trivial)

theorem sp_minus {w ks F} (h : Sp false w ks F) : Sp false ('-' :: w) (word .minus :: ks) F :=
  (sp_mark (c := '-') (t := .minus) (by decide) (by decide) (by decide)).cons h (fun _ _ => trivial)

theorem sp_paren {w ks} (h : Sp false w ks Stops) : Sp false ('(' :: (w ++ [')'])) (word .lpar :: (ks ++ [word .rpar])) Any := by
  have h2 := h.append (sp_mark (dot := false) (c := ')') (t := .rpar) (by decide) (by decide) (by decide)) (fun r _ => stops_mark (c := ')') (by decide))
  exact (sp_mark (c := '(') (t := .lpar) (by decide) (by decide) (by decide)).cons h2 (fun _ _ => trivial)

/-- `, ` -/
theorem sp_comma {w ks F} (h : Sp false w ks F) : Sp false ([',', ' '] ++ w) (word .comma :: ks) F :=
  (sp_mark (c := ',') (t := .comma) (by decide) (by decide) (by decide)).cons h.space (fun _ _ => trivial)

/-- An operator between blanks. -/
theorem sp_op (op : Op) {w ks F} (h : Sp false w ks F) : Sp false ([' '] ++ op.text ++ [' '] ++ w) (word (opTerminal op) :: ks) F := by
  have h' : Sp false (' ' :: w) ks F := h.space
  have key : ∀ G, Sp false op.text [word (opTerminal op)] G → (∀ r, G (' ' :: r)) → Sp false ([' '] ++ op.text ++ [' '] ++ w) (word (opTerminal op) :: ks) F := by
    intro G hG hr
    have := (hG.cons h' (fun r _ => hr _)).space
    simpa using this
  have nd : ∀ o : Op, word (opTerminal o) ≠ word .dot := by intro o; cases o <;> decide
  have mk : ∀ c t, (c, t) ∈ marks → c ≠ '/' → t ≠ .dot → Sp false [c] [word t] Any := fun c t h1 h2 h3 => sp_mark h1 h2 h3
  have nn : ∀ c r, c ≠ ' ' → NotNext c (' ' :: r) := by
    rintro c r hc r' e
    injection e with e _
    exact hc e.symm
  cases op with
  | plus => exact key Any (mk '+' .plus (by decide) (by decide) (by decide)) (fun _ => trivial)
  | minus => exact key Any (mk '-' .minus (by decide) (by decide) (by decide)) (fun _ => trivial)
  | mul => exact key Any (mk '*' .star (by decide) (by decide) (by decide)) (fun _ => trivial)
  | div => exact key _ (sp_lex (.mark (c := '/') (t := .slash) (by decide)) (nd .div)) (fun r _ => nn '/' _ (by decide))
  | eq => exact key Any (mk '=' .kEQUAL (by decide) (by decide) (by decide)) (fun _ => trivial)
  | gt => exact key _ (sp_lex .gt (nd .gt)) (fun r => nn _ _ (by decide))
  | lt => exact key _ (sp_lex .lt (nd .lt)) (fun r => ⟨nn _ _ (by decide), nn _ _ (by decide)⟩)
  | ne => exact key _ (sp_lex .ne (nd .ne)) (fun _ => trivial)
  | le => exact key _ (sp_lex .le (nd .le)) (fun _ => trivial)
  | ge => exact key _ (sp_lex .ge (nd .ge)) (fun _ => trivial)
  | mod => exact key Any (mk '%' .percent (by decide) (by decide) (by decide)) (fun _ => trivial)
  | or => exact key _ (sp_keyword (w := "ИЛИ") (t := .kOR) (by decide) (by decide) (by decide +kernel) (by decide) (by decide))
            (fun r => wordEnds_ascii (by decide) (by decide))
  | and => exact key _ (sp_keyword (w := "И") (t := .kAnd) (by decide) (by decide) (by decide +kernel) (by decide) (by decide))
            (fun r => wordEnds_ascii (by decide) (by decide))

theorem stops_op (op : Op) (r : List Char) : Stops ([' '] ++ op.text ++ [' '] ++ r) := by
  cases op <;> exact stops_spaceC (by decide) (by decide)

/-! ## Literals -/

omit [Letters] in
theorem printed_spec {x : F64} (hx : Finite64 x) : F64.parseFloat (Nat.toDigits 10 x.roundInt) = some (printed x) ∧
    (printed x).neg = false ∧ (printed x).roundInt = x.roundInt := by
  obtain ⟨y, h1, h2, _, _, h5⟩ := F64.reprint hx
  have : printed x = y := by rw [printed, h1]; rfl
  rw [this]
  exact ⟨h1, h2, h5⟩

theorem sp_num {x : F64} (hx : Finite64 x) : Sp false x.fmt0 (numE x).toks NumberEnds := by
  have h1 : Sp false (Nat.toDigits 10 x.roundInt) [literal .kNumber (.num (printed x))] NumberEnds :=
    sp_lex (.number (F64.digits_lit _) (printed_spec hx).1) (notDot (by decide))
  unfold F64.fmt0 numE
  cases x.neg with
  | true => exact sp_minus h1
  | false => exact h1

theorem sp_str {v : List Char} (hv : StrVal v) : Sp false ('"' :: v ++ ['"']) [literal .kString (.str v)] NoQuoteNext :=
  sp_lex (.string (strVal_src hv)) (notDot (by decide))

omit [Letters] in
theorem digitChar_nat {n : Nat} (h : n < 10) : Nat.digitChar n = digitChar n := by
  have hall : ∀ n < 10, Nat.digitChar n = digitChar n := by decide
  exact hall n h

omit [Letters] in
theorem pad_succ {w n : Nat} (hw : 1 ≤ w) : Time.pad (w + 1) n = Time.pad w (n / 10) ++ [digitChar (n % 10)] := by
  have hm : n % 10 < 10 := Nat.mod_lt _ (by decide)
  by_cases h : n / 10 = 0
  · have hn : n < 10 := by omega
    unfold Time.pad
    rw [Nat.toDigits_of_lt_base hn, h, Nat.toDigits_zero, digitChar_nat hn, Nat.mod_eq_of_lt hn]
    simp only [List.length_cons, List.length_nil]
    obtain ⟨k, rfl⟩ : ∃ k, w = k + 1 := ⟨w - 1, by omega⟩
    simp only [Nat.add_sub_cancel, Nat.zero_add]
    rw [List.replicate_succ', List.append_assoc]
  · have hd := Nat.toDigits_append_toDigits (b := 10) (n := n / 10) (d := n % 10) (by decide) (by omega) hm
    rw [Nat.div_add_mod, Nat.toDigits_of_lt_base hm, digitChar_nat hm] at hd
    unfold Time.pad
    rw [← hd]
    simp only [List.length_append, List.length_cons, List.length_nil, Nat.zero_add, Nat.add_sub_add_right, List.append_assoc]

omit [Letters] in
theorem pad_two {n : Nat} (h : n < 100) : Time.pad 2 n = two n := by
  rw [pad_succ (by decide), two]
  have h1 : n / 10 < 10 := by omega
  unfold Time.pad
  rw [Nat.toDigits_of_lt_base h1, digitChar_nat h1]
  rfl

omit [Letters] in
theorem pad_four {n : Nat} (h : n ≤ 9999) : Time.pad 4 n = four n := by
  rw [pad_succ (by decide), pad_succ (by decide), Nat.div_div_eq_div_mul, pad_two (by omega : n / (10 * 10) < 100), four]
  have h1 : n / 10 % 10 = n % 100 / 10 := by omega
  have h2 : n % 10 = n % 100 % 10 := by omega
  rw [h1, h2, List.append_assoc]
  rfl

omit [Letters] in
theorem format_eq {t : Time} (h : CalendarDate t) :
    t.format = four t.year ++ two t.month ++ two t.day ++ two t.hour ++ two t.min ++ two t.sec := by
  obtain ⟨h1, h2, h3, h4, h5, h6⟩ := h
  obtain ⟨h7, h8⟩ := monthLength_pos (Nat.le_trans h2 h3)
  have := monthLength_le t.year t.month
  unfold Time.format
  rw [pad_four h1, pad_two (by omega : t.month < 100), pad_two (by omega : t.day < 100), pad_two (by omega : t.hour < 100),
    pad_two (by omega : t.min < 100), pad_two (by omega : t.sec < 100)]

omit [Letters] in
theorem two_digit (n : Nat) : ∀ c ∈ two n, Digit c := by
  have : ∀ k, Digit (digitChar k) := by
    intro k
    by_cases hk : k < 10
    · exact (digitChar_digit hk).1
    · unfold digitChar
      rw [List.getD_eq_getElem?_getD, List.getElem?_eq_none (by simp; omega)]
      simp [Digit]
  intro c hc
  rcases List.mem_cons.1 hc with rfl | hc
  · exact this _
  · rw [List.mem_singleton.1 hc]; exact this _

omit [Letters] in
theorem two_pos {n : Nat} (h : 1 ≤ n) (h' : n < 100) : ∃ c ∈ two n, c ≠ '0' := by
  have hall : (List.range 100).all (fun n => n == 0 || (two n).any (fun c => c != '0')) = true := by decide +kernel
  have := List.all_eq_true.1 hall n (List.mem_range.2 h')
  rw [Bool.or_eq_true] at this
  rcases this with h0 | h0
  · have := eq_of_beq h0; omega
  · obtain ⟨c, h1, h2⟩ := List.any_eq_true.1 h0
    exact ⟨c, h1, by simpa using h2⟩

theorem sp_date {t : Time} (h : CalendarDate t) : Sp false ('\'' :: t.format ++ ['\'']) [literal .kDate (.date t)] NoQuoteNext := by
  have hf := format_eq h
  have hd : ∀ c ∈ t.format, Digit c := by
    intro c hc
    rw [hf] at hc
    simp only [four, List.mem_append] at hc
    rcases hc with ((((hc | hc) | hc) | hc) | hc) | hc
    · rcases hc with hc | hc <;> exact two_digit _ c hc
    all_goals exact two_digit _ c hc
  have he : extractDigits t.format = t.format := List.filter_eq_self.2 fun c hc => (isDigit_iff c).2 (hd c hc)
  have hs := dateSrc_plain (s := t.format) fun c hc => digit_plain (hd c hc)
  rw [he] at hs
  refine sp_lex (.date hs ?_) (notDot (by decide))
  refine .date ?_ h ?_
  · obtain ⟨h1, h2, h3, h4, h5, h6⟩ := h
    have := monthLength_le t.year t.month
    obtain ⟨c, hc, hc'⟩ := two_pos h2 (by omega)
    refine ⟨c, ?_, hc'⟩
    rw [hf]
    simp [hc]
  · rw [hf]; exact .second

theorem sp_bool (b : Bool) : Sp false (if b then "Истина".toList else "Ложь".toList) (Simple.toks (.bool b)) WordEnds := by
  cases b with
  | true => exact sp_lex (.tru (rus_word (by decide) (by decide)) (.keyword (by decide +kernel))) (notDot (by decide))
  | false => exact sp_lex (.fls (rus_word (by decide) (by decide)) (.keyword (by decide +kernel))) (notDot (by decide))

/-! ## Equations of the printer -/

section
omit [Letters]
theorem pr_num (m x) : pr m (.num x) = onFlag (!m.isChain) x.fmt0 := by unfold pr; rfl
theorem pr_str (m s) : pr m (.str s) = onFlag (!m.isChain) ('"' :: s ++ ['"']) := by unfold pr; rfl
theorem pr_bool (m b) : pr m (.bool b) = onFlag (!m.isChain) (if b then "Истина".toList else "Ложь".toList) := by unfold pr; rfl
theorem pr_date (m t) : pr m (.date t) = onFlag (!m.isChain) ('\'' :: t.format ++ ['\'']) := by unfold pr; rfl
theorem pr_undef (m) : pr m .undef = onFlag (!m.isChain) "Неопределено".toList := by unfold pr; rfl
theorem pr_chain (m u c i n) (hc : c ≠ .nil) :
    pr m (.chain u c i n) = onFlag (n && !m.isChain) "Не ".toList ++ (pr .chain c ++ ['.'] ++ pr .var u) := by
  cases c <;> first | exact absurd rfl hc | (conv => lhs; unfold pr)
theorem pr_method (m f ps n) : pr m (.method f ps n) = onFlag n "Не ".toList ++ f ++ ['('] ++ join [',', ' '] (prList ps) ++ [')'] := by
  unfold pr; rfl
theorem pr_var (m s u n) : pr m (.var s u n) = onFlag (m.isExpr && n) "Не ".toList ++ onFlag (m.isExpr && u) ['-'] ++ s := by unfold pr; rfl
theorem pr_item (m i o) : pr m (.item i o) = pr .var o ++ ['['] ++ pr (.expr 0) i ++ [']'] := by conv => lhs; unfold pr
theorem pr_ternary (m c t e) : pr m (.ternary c t e) = onFlag (!m.isChain)
      (['?', '('] ++ pr (.expr 0) c ++ [',', ' '] ++ pr (.expr 0) t ++ [',', ' '] ++ pr (.expr 0) e ++ [')']) := by conv => lhs; unfold pr
theorem pr_new (m c ps) : pr m (.new c ps) = onFlag (!m.isChain)
      ("Новый ".toList ++ c ++ ['('] ++ join [',', ' '] (prList ps) ++ [')']) := by unfold pr; rfl
theorem pr_assign (m v l) : pr m (.assign v l) = onFlag (!m.isChain) (pr .var v ++ [' ', '=', ' '] ++ prCat 0 l) := by conv => lhs; unfold pr
theorem pr_exprs (m l n) : pr m (.exprs l n) = onFlag (!m.isChain)
      (onFlag n "Не (".toList ++ prCat (if m.level = 0 then 0 else m.level + 1) l ++ onFlag n [')']) := by unfold pr; rfl
theorem pr_bin (m op l r u n) : pr m (.bin op l r u n) = onFlag (!m.isChain)
      (onFlag (0 < m.level) ['('] ++ onFlag n "Не ".toList ++ onFlag u ['-'] ++ onFlag (u || n) ['('] ++
        pr (.expr (m.level + 1)) l ++ [' '] ++ op.text ++ [' '] ++ pr (.expr (m.level + 1)) r ++
        onFlag (u || n) [')'] ++ onFlag (0 < m.level) [')']) := by conv => lhs; unfold pr
theorem prList_eq : ∀ l, prList l = l.map (pr .var)
  | [] => by unfold prList; rfl
  | s :: l => by unfold prList; rw [prList_eq l]; rfl
theorem prCat_one (k s) : prCat k [s] = pr (.expr k) s := by unfold prCat; unfold prCat; simp
theorem join_snoc (sep x : List Char) : ∀ l, l ≠ [] → join sep (l ++ [x]) = join sep l ++ sep ++ x
  | [], h => absurd rfl h
  | [a], _ => rfl
  | a :: b :: l, _ => by
    have := join_snoc sep x (b :: l) (by simp)
    show a ++ sep ++ join sep (b :: l ++ [x]) = (a ++ sep ++ join sep (b :: l)) ++ sep ++ x
    rw [this]
    simp only [List.append_assoc]
theorem prCat_sub (lv : Lv) (s : Stm) : prCat (if lv.mode.level = 0 then 0 else lv.mode.level + 1) [s] = pr lv.sub.mode s := by
  cases lv
  · exact prCat_one 0 s
  · exact prCat_one 0 s
  · rw [prCat_one]; exact pr_inner 1 s
end

theorem ReP.ne_nil {g s p} (h : ReP g s p) : s ≠ .nil := by
  cases h with
  | one h => cases h <;> exact nofun
  | dot => exact nofun

theorem ReI.mode {g dot s i} (h : ReI g dot s i) (m m' : PMode) : pr m s = pr m' s := by
  cases h with
  | name => simp [pr_var, onFlag]
  | call => rw [pr_method, pr_method]
  | exec => rw [pr_method, pr_method]
  | item => rw [pr_item, pr_item]

theorem ReP.mode {g s p} (h : ReP g s p) (m m' : PMode) : pr m s = pr m' s := by
  cases h with
  | one h => exact h.mode m m'
  | dot h _ => rw [pr_chain _ _ _ _ _ h.ne_nil, pr_chain _ _ _ _ _ h.ne_nil]; simp [onFlag]

/-! ## Printed expressions -/

theorem sp_nil {F} : Sp false [] [] F := fun _ _ _ h => h

theorem sp_args {f : List Char} {w : List Char} {k : Key} {ks : List Key} {dot : Bool} (h1 : Sp dot f [k] WordEnds) (h2 : Sp false w ks Stops) :
    Sp dot (f ++ ['('] ++ w ++ [')']) (k :: word .lpar :: (ks ++ [word .rpar])) Any := by
  have := h1.cons (sp_paren h2) (fun r _ => (stops_mark (c := '(') (by decide)).word)
  simpa using this

theorem sp_signs (u n : Bool) {w : List Char} {e : Expr} {F} (h : Sp false w e.toks F) :
    Sp false (onFlag n "Не ".toList ++ onFlag u ['-'] ++ w) (signsE u n e).toks F := by
  cases u <;> cases n
  · simpa [onFlag, signsE] using h
  · have := sp_not h
    simpa [onFlag, signsE, Expr.toks] using this
  · have := sp_minus h
    simpa [onFlag, signsE, Expr.toks, Simple.toks] using this
  · have := sp_not (sp_minus h)
    simpa [onFlag, signsE, Expr.toks, Simple.toks] using this

theorem sp_parenE {w : List Char} {e : Expr} (h : Sp false w e.toks Stops) : Sp false ('(' :: (w ++ [')'])) (parenE e).toks Any := by
  have := sp_paren h
  simpa [parenE, Expr.toks, Args.toks, OptExpr.toks] using this

/-- A binary operation on level 0. -/
theorem sp_binE (op : Op) (u n : Bool) {wl wr : List Char} {a b : Expr} (h1 : Sp false wl a.toks Stops) (h2 : Sp false wr b.toks Stops) :
    Sp false (onFlag n "Не ".toList ++ onFlag u ['-'] ++ (onFlag (u || n) ['('] ++ (wl ++ ([' '] ++ op.text ++ [' '] ++ wr)) ++ onFlag (u || n) [')']))
      (binE op a b u n).toks Stops := by
  have h : Sp false (wl ++ ([' '] ++ op.text ++ [' '] ++ wr)) (Expr.bin op a b).toks Stops := by
    have := h1.append (sp_op op h2) (fun r _ => by rw [List.append_assoc]; exact stops_op op _)
    simpa [Expr.toks] using this
  by_cases hf : (u || n) = true
  · simp only [binE, hf, if_true]
    refine sp_signs u n ?_
    have := sp_parenE h
    simp only [onFlag, if_true]
    exact Sp.any (by simpa using this)
  · have hu : u = false := by cases u <;> simp_all
    have hn : n = false := by cases n <;> simp_all
    subst hu; subst hn
    simpa [onFlag, binE] using h

mutual
theorem ReI.sp {g : Bool} : ∀ {dot s i}, ReI g dot s i → Sp dot (pr .var s) i.toks WordEnds
  | _, _, _, .name (n := n) h => by
    rw [pr_var]
    simpa [onFlag, PMode.isExpr, Ident.toks] using sp_name h
  | _, _, _, .call h ha => by
    rw [pr_method]
    have := sp_args (sp_name h) ha.sp
    exact Sp.any (by simpa [onFlag, Ident.toks] using this)
  | _, _, _, .exec (w := w) (s := s) h he => by
    rw [pr_method]
    have hl : Sp false w [named .kExecute w] WordEnds := sp_lex (.exec h.1 h.2) (notDot (by decide))
    have := sp_args hl he.sp
    rw [prList_eq]
    exact Sp.any (by simpa [onFlag, Ident.toks, join, Place.mode] using this)
  | _, _, _, .item hi he => by
    rw [pr_item]
    have h2 : Sp false _ _ Stops := he.sp
    have h3 := h2.append (sp_mark (dot := false) (c := ']') (t := .rbr) (by decide) (by decide) (by decide)) (fun r _ => stops_mark (c := ']') (by decide))
    have h4 := (sp_mark (dot := false) (c := '[') (t := .lbr) (by decide) (by decide) (by decide)).cons h3 (fun _ _ => trivial)
    have := hi.sp.append h4 (fun r _ => (stops_mark (c := '[') (by decide)).word)
    exact Sp.any (by simpa [Ident.toks, Place.mode] using this)
theorem ReP.sp {g : Bool} : ∀ {s p}, ReP g s p → Sp false (pr .chain s) p.toks WordEnds
  | _, _, .one h => by
    rw [h.mode .chain .var]
    exact h.sp
  | _, _, .dot hp hi => by
    rw [pr_chain _ _ _ _ _ hp.ne_nil]
    have := hp.sp.append (sp_dot hi.sp) (fun r _ => wordEnds_ascii (c := '.') (by decide) (by decide))
    simpa [onFlag, Path.toks] using this
theorem ReA.sp {g : Bool} : ∀ {l a}, ReA g l a → Sp false (join [',', ' '] (prList l)) a.toks Stops
  | _, _, .nil => by
    unfold prList
    simpa [join, Args.toks, OptExpr.toks] using sp_nil
  | _, _, .one h => by
    rw [prList_eq]
    simpa [join, Args.toks] using h.sp
  | _, _, .snoc (l := l) (s := s) hl ha ho => by
    rw [prList_eq, List.map_append, List.map_cons, List.map_nil, join_snoc _ _ _ (by simpa using hl), ← prList_eq]
    have := ha.sp.append (sp_comma ho.sp) (fun r _ => stops_mark (c := ',') (by decide))
    simpa [Args.toks] using this
theorem ReO.sp {g : Bool} : ∀ {s o}, ReO g s o → Sp false (pr .var s) o.toks Stops
  | _, _, .none => by
    unfold pr
    simpa [OptExpr.toks] using sp_nil
  | _, _, .some h => h.sp
theorem ReN.sp {g : Bool} : ∀ {c ps n}, ReN g c ps n → Sp false ("Новый ".toList ++ c ++ ['('] ++ join [',', ' '] (prList ps) ++ [')']) n.toks Any
  | _, _, _, .call h ha => by
    have h1 := sp_args (sp_name h) ha.sp
    have h2 := (sp_keyword (w := "Новый") (t := .kNew) (by decide) (by decide) (by decide +kernel) (by decide) (by decide)).cons
      (h1.space) (fun r _ => wordEnds_ascii (c := ' ') (by decide) (by decide))
    have e : "Новый ".toList = "Новый".toList ++ [' '] := rfl
    rw [e]
    simpa [New.toks] using h2
  | _, _, _, .args ha => by
    have h1 := sp_paren ha.sp
    have h2 := (sp_keyword (w := "Новый") (t := .kNew) (by decide) (by decide) (by decide +kernel) (by decide) (by decide)).cons
      (h1.space) (fun r _ => wordEnds_ascii (c := ' ') (by decide) (by decide))
    have e : "Новый ".toList = "Новый".toList ++ [' '] := rfl
    rw [e]
    simpa [New.toks] using h2
theorem ReE.sp {g : Bool} : ∀ {lv s e}, ReE g lv s e → Sp false (pr lv.mode s) e.toks Stops
  | lv, _, _, .num h => by
    rw [pr_num]
    cases lv <;> exact (sp_num h).weaken fun _ h => h.number
  | lv, _, _, .str h => by
    rw [pr_str]
    cases lv <;> exact (sp_str h).weaken fun _ h => h.quote
  | lv, _, _, .bool (b := b) => by
    rw [pr_bool]
    cases lv <;> exact (sp_bool b).stops
  | lv, _, _, .date h => by
    rw [pr_date]
    cases lv <;> exact (sp_date h).weaken fun _ h => h.quote
  | lv, _, _, .undef => by
    rw [pr_undef]
    have := (sp_keyword (w := "Неопределено") (t := .kUndefind) (by decide) (by decide) (by decide +kernel) (by decide) (by decide)).stops
    cases lv <;> exact this
  | lv, _, _, .path h => by
    rw [h.mode _ .chain]
    exact h.sp.stops
  | lv, _, _, .minus (u := u) (c := c) h => by
    have hc : c ≠ .nil := by
      cases h with
      | one h => cases h
      | dot h _ => exact h.ne_nil
    have := h.sp.stops
    rw [pr_chain _ _ _ _ _ hc] at this ⊢
    simpa [onFlag, Expr.toks] using this
  | lv, _, _, .notChain (u := u) (c := c) h => by
    have hc : c ≠ .nil := by
      cases h with
      | one h => cases h
      | dot h _ => exact h.ne_nil
    have := h.sp.stops
    rw [pr_chain _ _ _ _ _ hc] at this ⊢
    have := sp_not this
    cases lv <;> simpa [onFlag, Place.mode, PMode.isChain, Expr.toks] using this
  | lv, _, _, .notCall h => by
    have := h.sp.stops
    rw [pr_method] at this ⊢
    have := sp_not this
    simpa [onFlag, Expr.toks] using this
  | lv, _, _, .var (n := n) (u := u) (nt := nt) h hl => by
    have h1 : Sp false n (Expr.path (.one (.name n))).toks Stops := (sp_name h).stops
    have := sp_signs u nt h1
    rw [pr_var]
    cases lv with
    | arg => exact absurd rfl hl
    | top => simpa [Place.mode, PMode.isExpr] using this
    | inner => simpa [Place.mode, PMode.isExpr] using this
  | _, _, _, .varArg (n := n) h => by
    have h1 : Sp false n (Expr.path (.one (.name n))).toks Stops := (sp_name h).stops
    rw [pr_var]
    simpa [Place.mode, PMode.isExpr, onFlag] using h1
  | lv, _, _, .ternary hc ht he => by
    rw [pr_ternary]
    have h3 := ht.sp.append (sp_comma he.sp) (fun r _ => stops_mark (c := ',') (by decide))
    have h4 := hc.sp.append (sp_comma h3) (fun r _ => stops_mark (c := ',') (by decide))
    have h5 := (sp_mark (dot := false) (c := '?') (t := .quest) (by decide) (by decide) (by decide)).cons (sp_paren h4) (fun _ _ => trivial)
    refine Sp.any ?_
    cases lv <;> simpa [onFlag, Place.mode, PMode.isChain, Expr.toks] using h5
  | lv, _, _, .new h => by
    rw [pr_new]
    refine Sp.any ?_
    cases lv <;> exact h.sp
  | lv, _, _, .elem h _ => by
    rw [pr_exprs, prCat_sub]
    have := h.sp
    cases lv <;> simpa [onFlag, Place.mode, PMode.isChain] using this
  | lv, _, _, .notElem h => by
    rw [pr_exprs, prCat_sub]
    have := sp_not (sp_parenE h.sp)
    refine Sp.any ?_
    have e : "Не (".toList = "Не ".toList ++ ['('] := rfl
    rw [e]
    cases lv <;> simpa [onFlag, Place.mode, PMode.isChain, Expr.toks] using this
  | lv, _, _, .bin (op := op) (u := u) (n := n) hl hr hv _ => by
    have := sp_binE op u n hl.sp hr.sp
    rw [pr_bin, pr_inner, pr_inner]
    cases lv with
    | inner => exact absurd rfl hv
    | arg => simpa [onFlag, Place.mode, PMode.isChain, PMode.level] using this
    | top => simpa [onFlag, Place.mode, PMode.isChain, PMode.level] using this
  | _, _, _, .inner (op := op) (u := u) (n := n) hl hr _ => by
    have := sp_parenE (sp_binE op u n hl.sp hr.sp)
    rw [pr_bin, pr_inner, pr_inner]
    refine Sp.any ?_
    simpa [onFlag, Place.mode, PMode.isChain, PMode.level] using this
end

end Verif
