import Verif.Proofs.Reprint.Stmts
/-!
# Printed statements spell their tokens
-/
namespace Verif
open Spec Lexer

variable [Letters]

/-- A keyword and a blank. -/
theorem sp_kw (w : String) (t : Terminal) {v ks F} (h : Sp false v ks F) (hne : w.toList ≠ [] := by decide)
    (hc : ∀ c ∈ w.toList, 0x410 ≤ c.toNat ∧ c.toNat ≤ 0x44F := by decide)
    (hk : (String.ofList (w.toList.map lowerChar), t.kind) ∈ keywordTable := by decide +kernel)
    (hn : t ∉ [Terminal.ktoken_identifier, .kTrue, .kFalse, .kExecute] := by decide) (hd : t ≠ .dot := by decide) :
    Sp false (w.toList ++ ' ' :: v) (word t :: ks) F :=
  (sp_keyword hne hc hk hn hd).cons h.space (fun _ _ => wordEnds_ascii (by decide) (by decide))

/-- A keyword in front of what cannot continue it. -/
theorem sp_kwEnd (w : String) (t : Terminal) {v ks F} (h : Sp false v ks F) (hv : ∀ r, F r → WordEnds (v ++ r)) (hne : w.toList ≠ [] := by decide)
    (hc : ∀ c ∈ w.toList, 0x410 ≤ c.toNat ∧ c.toNat ≤ 0x44F := by decide)
    (hk : (String.ofList (w.toList.map lowerChar), t.kind) ∈ keywordTable := by decide +kernel)
    (hn : t ∉ [Terminal.ktoken_identifier, .kTrue, .kFalse, .kExecute] := by decide) (hd : t ≠ .dot := by decide) :
    Sp false (w.toList ++ v) (word t :: ks) F :=
  (sp_keyword hne hc hk hn hd).cons h hv

theorem sp_semi : Sp false [';'] [word .semi] Any := sp_mark (c := ';') (t := .semi) (by decide) (by decide) (by decide)

theorem semi_ends (r : List Char) : Stops (';' :: r) := stops_mark (by decide)

theorem Sp.blanks {dot w ks} {l : List Char} (h : Sp dot w ks Any) (hl : Layout l) : Sp dot (w ++ l) ks Any := h.after hl (fun _ => trivial)

/-- `;` and a line feed. -/
theorem sp_semiNl (cf : PrintConf) : Sp false ([';'] ++ cf.nl 1) [word .semi] Any := sp_semi.blanks (nl_layout cf 1)

/-- An expression followed by `;`. -/
theorem Sp.semi {w ks} (h : Sp false w ks Stops) : Sp false (w ++ [';']) (ks ++ [word .semi]) Any :=
  h.append sp_semi (fun r _ => semi_ends r)

theorem Sp.both {a ks b ks2 F} (h1 : Sp false a ks Any) (h2 : Sp false b ks2 F) : Sp false (a ++ b) (ks ++ ks2) F :=
  h1.append h2 (fun _ _ => trivial)

/-- The end of a compound statement. -/
theorem sp_end (cf : PrintConf) (d : Nat) (w : String) (t : Terminal) (hne : w.toList ≠ [] := by decide)
    (hc : ∀ c ∈ w.toList, 0x410 ≤ c.toNat ∧ c.toNat ≤ 0x44F := by decide)
    (hk : (String.ofList (w.toList.map lowerChar), t.kind) ∈ keywordTable := by decide +kernel)
    (hn : t ∉ [Terminal.ktoken_identifier, .kTrue, .kFalse, .kExecute] := by decide) (hd : t ≠ .dot := by decide) :
    Sp false (cf.sp d ++ (w.toList ++ ([';'] ++ cf.nl 1))) [word t, word .semi] Any :=
  (sp_kwEnd w t (sp_semiNl cf) (fun _ _ => (semi_ends _).word) hne hc hk hn hd).layout (sp_layout cf d)

/-- An expression followed by ` w ` and more. -/
theorem Sp.then {a ks} (h1 : Sp false a ks Stops) (w : String) (t : Terminal) {v ks2} (h : Sp false v ks2 Any)
    (hw : ∃ c l, w.toList = c :: l ∧ isSpace c = false ∧ c ≠ '"') (hne : w.toList ≠ [] := by decide)
    (hc : ∀ c ∈ w.toList, 0x410 ≤ c.toNat ∧ c.toNat ≤ 0x44F := by decide)
    (hk : (String.ofList (w.toList.map lowerChar), t.kind) ∈ keywordTable := by decide +kernel)
    (hn : t ∉ [Terminal.ktoken_identifier, .kTrue, .kFalse, .kExecute] := by decide) (hd : t ≠ .dot := by decide) :
    Sp false (a ++ ' ' :: (w.toList ++ ' ' :: v)) (ks ++ word t :: ks2) Any := by
  refine h1.append (sp_kw w t h hne hc hk hn hd).space (fun r _ => ?_)
  obtain ⟨c, l, e, h2, h3⟩ := hw
  rw [e]
  exact stops_spaceC h2 h3

theorem Sp.thenDo {a ks} (h1 : Sp false a ks Stops) {v ks2} (h : Sp false v ks2 Any) :
    Sp false (a ++ (" Тогда ".toList ++ v)) (ks ++ word .kThen :: ks2) Any :=
  h1.then "Тогда" .kThen h ⟨'Т', "огда".toList, rfl, by decide, by decide⟩

theorem Sp.loopDo {a ks} (h1 : Sp false a ks Stops) {v ks2} (h : Sp false v ks2 Any) :
    Sp false (a ++ (" Цикл ".toList ++ v)) (ks ++ word .kLoop :: ks2) Any :=
  h1.then "Цикл" .kLoop h ⟨'Ц', "икл".toList, rfl, by decide, by decide⟩

theorem ReSrc.sp {g s x} (h : ReSrc g s x) : Sp false (prE s) x.toks Stops := by
  cases h with
  | path h => exact (ReE.path (lv := .top) h).sp
  | new h => exact (ReE.new (lv := .top) h).sp
  | ternary h1 h2 h3 => exact (ReE.ternary (lv := .top) h1 h2 h3).sp

theorem ReE.ne_nil {g lv s e} (h : ReE g lv s e) : s ≠ .nil := by
  cases h with
  | path h => exact h.ne_nil
  | _ => exact nofun

theorem ReSrc.ne_nil {g s x} (h : ReSrc g s x) : s ≠ .nil := by
  cases h with
  | path h => exact h.ne_nil
  | _ => exact nofun

omit [Letters] in
/-- Every printed statement begins with the margin. -/
theorem item_margin (cf : PrintConf) (d : Nat) (s : Stm) : ∃ r, printItem cf d s = cf.sp d ++ r := by
  cases s <;> (unfold printItem; (try simp only [List.append_assoc]); exact ⟨_, rfl⟩)

/-- A block begins with a blank. -/
theorem body_ends (cf : PrintConf) (d : Nat) (l : List Stm) (r : List Char) (h : cf.oneLine = false ∨ (0 < cf.margin ∧ l ≠ [])) :
    WordEnds (printBody cf (d + 1) l ++ r) := by
  by_cases ho : cf.oneLine = false
  · have hn : cf.nl 1 ≠ [] := by simp [PrintConf.nl, ho]
    cases l with
    | nil =>
      unfold printBody
      exact wordEnds_blank (nl_blank cf 1) hn
    | cons s l =>
      unfold printBody
      rw [List.append_assoc, List.append_assoc]
      exact wordEnds_blank (nl_blank cf 1) hn
  · rcases h with h | ⟨h1, h2⟩
    · exact absurd h ho
    · cases l with
      | nil => exact absurd rfl h2
      | cons s l =>
        unfold printBody
        have : cf.nl 1 = [] := by simp [PrintConf.nl, ho]
        obtain ⟨x, hx⟩ := item_margin cf (d + 1) s
        rw [this, hx, List.nil_append, List.append_assoc, List.append_assoc]
        refine wordEnds_blank (sp_blank cf (d + 1)) ?_
        rw [PrintConf.sp]
        intro e
        have := congrArg List.length e
        simp at this
        omega

theorem sp_label {n : Name} (h : ∀ c ∈ n, WordPart c) : Sp false ('~' :: n) [named .kGoToLabel n] WordEnds :=
  sp_lex (.label h) (notDot (by decide))

omit [Letters] in
theorem tryOkL_append {cf : PrintConf} : ∀ {l l' : List Stm}, tryOkL cf (l ++ l') → tryOkL cf l ∧ tryOkL cf l'
  | [], _, h => ⟨trivial, h⟩
  | s :: l, l', h => by
    have := tryOkL_append (l := l) (l' := l') h.2
    exact ⟨⟨h.1, this.1⟩, this.2⟩

mutual
theorem ReS.sp {g : Bool} {cf : PrintConf} : ∀ {s s' p}, ReS g s s' p → ∀ (d : Nat), tryOk cf s → Sp false (printItem cf d s) (s'.toks ++ [p.tok]) Any
  | _, _, _, .assign hp he, d, _ => by
    rw [item_assign, pr_assign, prCat_one, hp.mode .var .chain]
    have h1 : Sp false (' ' :: '=' :: ' ' :: pr (.expr 0) _) (word .kEQUAL :: _) Stops :=
      ((sp_mark (c := '=') (t := .kEQUAL) (by decide) (by decide) (by decide)).cons he.sp.space (fun _ _ => trivial)).space
    have h2 := (hp.sp.append h1 (fun r _ => wordEnds_ascii (by decide) (by decide))).semi.layout (sp_layout cf d)
    simpa [onFlag, PMode.isChain, Stmt.toks, Sep.tok] using h2
  | _, _, _, .chain (u := u) (c := c) (m := m) (n := n) hp, d, _ => by
    rw [item_chain]
    have e : pr .chain (.chain u c m n) = pr .chain (.chain u c false false) := by
      obtain ⟨_, _, _, h, _⟩ := hp.chain_inv
      rw [pr_chain _ _ _ _ _ h.ne_nil, pr_chain _ _ _ _ _ h.ne_nil]
      simp [PMode.isChain, onFlag]
    rw [e]
    have := hp.sp.stops.semi.layout (sp_layout cf d)
    simpa [Stmt.toks, Expr.toks, Sep.tok] using this
  | _, _, _, .bin h _, d, _ => by
    rw [item_bin]
    have := h.sp.semi.layout (sp_layout cf d)
    simpa [Stmt.toks, Sep.tok, prE, Place.mode] using this
  | _, _, _, .expr hs h _, d, _ => by
    rw [item_expr _ _ _ hs]
    have := h.sp.semi.layout (sp_layout cf d)
    simpa [Stmt.toks, Sep.tok, Place.mode] using this
  | _, _, _, .ifS (el := el) hc htb hei hel, d, ht => by
    rw [item_if]
    unfold tryOk at ht
    have h1 := (htb.sp (d + 1) ht.1).both ((hei.sp d ht.2.1).both ((hel.sp d ht.2.2).both (sp_end cf d "КонецЕсли" .kEndIf)))
    have h2 := (sp_kw "Если" .kIf (hc.sp.thenDo h1)).layout (sp_layout cf d)
    have e : "Если ".toList = "Если".toList ++ [' '] := rfl
    rw [e]
    simp only [Stmt.toks, Sep.tok, List.append_assoc, List.cons_append, List.nil_append, prE] at h2 ⊢
    exact h2
  | _, _, _, .forEach (n := n) hn hi hb, d, ht => by
    rw [item_each _ _ _ _ _ hi.ne_nil]
    unfold tryOk at ht
    have h1 := (hb.sp (d + 1) ht).both (sp_end cf d "КонецЦикла" .kEndLoop)
    have h2 := (sp_name hn).stops.then "Из" .kIn (hi.sp.loopDo h1) ⟨'И', "з".toList, rfl, by decide, by decide⟩
    have h3 := (sp_kw "Для" .kFor (sp_kw "Каждого" .kEach h2)).layout (sp_layout cf d)
    have e : "Для ".toList = "Для".toList ++ [' '] := rfl
    have e2 : "Каждого ".toList = "Каждого".toList ++ [' '] := rfl
    have e3 : " Из ".toList = ' ' :: ("Из".toList ++ [' ']) := rfl
    rw [e, e2, e3]
    simp only [Stmt.toks, Sep.tok, List.append_assoc, List.cons_append, List.nil_append] at h3 ⊢
    exact h3
  | _, _, _, .forTo hf hz hb, d, ht => by
    rw [item_to _ _ _ _ _ hz.ne_nil]
    unfold tryOk at ht
    have h1 := (hb.sp (d + 1) ht).both (sp_end cf d "КонецЦикла" .kEndLoop)
    have h2 := hf.sp.then "По" .kTo (hz.sp.loopDo h1) ⟨'П', "о".toList, rfl, by decide, by decide⟩
    have h3 := (sp_kw "Для" .kFor h2).layout (sp_layout cf d)
    have e : "Для ".toList = "Для".toList ++ [' '] := rfl
    have e3 : " По ".toList = ' ' :: ("По".toList ++ [' ']) := rfl
    rw [e, e3]
    simp only [Stmt.toks, Sep.tok, List.append_assoc, List.cons_append, List.nil_append, prE] at h3 ⊢
    exact h3
  | _, _, _, .whileS hc hb, d, ht => by
    rw [item_while _ _ _ _ hc.ne_nil]
    unfold tryOk at ht
    have h1 := (hb.sp (d + 1) ht).both (sp_end cf d "КонецЦикла" .kEndLoop)
    have h3 := (sp_kw "Пока" .kWhile (hc.sp.loopDo h1)).layout (sp_layout cf d)
    have e : "Пока ".toList = "Пока".toList ++ [' '] := rfl
    rw [e]
    simp only [Stmt.toks, Sep.tok, List.append_assoc, List.cons_append, List.nil_append, prE] at h3 ⊢
    exact h3
  | _, _, _, .tryS (b := b) (h := h) hb hh, d, ht => by
    rw [item_try]
    unfold tryOk at ht
    have h1 := (hh.sp (d + 1) ht.2.2).both (sp_end cf d "КонецПопытки" .kEndTry)
    have h2 := (sp_kwEnd "Исключение" .kCatch h1 (fun r _ => by
      rw [List.append_assoc]; exact body_ends cf d h _ (ht.1.imp id fun x => ⟨x.1, x.2.2⟩))).layout (sp_layout cf d)
    have h3 := (hb.sp (d + 1) ht.2.1).both h2
    have h4 := (sp_kwEnd "Попытка" .kTry h3 (fun r _ => by
      rw [List.append_assoc]; exact body_ends cf d b _ (ht.1.imp id fun x => ⟨x.1, x.2.1⟩))).layout (sp_layout cf d)
    simp only [Stmt.toks, Sep.tok, List.append_assoc, List.cons_append, List.nil_append] at h4 ⊢
    exact h4
  | _, _, _, .cont, d, _ => by
    rw [item_cont]
    have := (sp_kwEnd "Продолжить" .kContinue sp_semi (fun r _ => (semi_ends _).word)).layout (sp_layout cf d)
    exact this
  | _, _, _, .brk, d, _ => by
    rw [item_brk]
    have := (sp_kwEnd "Прервать" .kBreak sp_semi (fun r _ => (semi_ends _).word)).layout (sp_layout cf d)
    exact this
  | _, _, _, .rethrow, d, _ => by
    rw [item_rethrow]
    have := (sp_kwEnd "ВызватьИсключение" .kThrow sp_semi (fun r _ => (semi_ends _).word)).layout (sp_layout cf d)
    simpa only [List.append_assoc, Stmt.toks, OptExpr.toks, Sep.tok, List.cons_append, List.nil_append] using this
  | _, _, _, .throwList ha, d, _ => by
    rw [item_throwList]
    have h1 := (sp_paren ha.sp).both sp_semi
    have := (sp_kwEnd "ВызватьИсключение" .kThrow h1 (fun r _ => (stops_mark (c := '(') (by decide)).word)).layout (sp_layout cf d)
    simp only [List.append_assoc, Stmt.toks, OptExpr.toks, Sep.tok, Expr.toks, List.cons_append, List.nil_append] at this ⊢
    exact this
  | _, _, _, .throw h hx, d, _ => by
    rw [item_throw _ _ _ h.ne_nil hx]
    have h1 := (sp_parenE h.sp).both sp_semi
    have := (sp_kwEnd "ВызватьИсключение" .kThrow h1 (fun r _ => (stops_mark (c := '(') (by decide)).word)).layout (sp_layout cf d)
    simp only [List.append_assoc, Stmt.toks, OptExpr.toks, Sep.tok, List.cons_append, List.nil_append, Place.mode] at this ⊢
    exact this
  | _, _, _, .ret, d, _ => by
    rw [item_ret]
    have := (sp_kwEnd "Возврат" .kReturn sp_semi (fun r _ => (semi_ends _).word)).layout (sp_layout cf d)
    simpa only [List.append_assoc, Stmt.toks, OptExpr.toks, Sep.tok, List.cons_append, List.nil_append] using this
  | _, _, _, .retValue h, d, _ => by
    rw [item_retValue _ _ _ h.ne_nil]
    have := (sp_kw "Возврат" .kReturn h.sp.semi).layout (sp_layout cf d)
    simp only [List.append_assoc, Stmt.toks, OptExpr.toks, Sep.tok, List.cons_append, List.nil_append, prE] at this ⊢
    exact this
  | _, _, _, .label h, d, _ => by
    rw [item_label]
    have h1 : Sp false [':'] [word .colon] Any := sp_mark (by decide) (by decide) (by decide)
    have := (((sp_label h).append h1 (fun r _ => wordEnds_ascii (by decide) (by decide))).blanks (nl_layout cf 1)).layout (sp_layout cf d)
    simp only [List.append_assoc, Stmt.toks, Expr.toks, Simple.toks, Sep.tok, List.cons_append, List.nil_append] at this ⊢
    exact this
  | _, _, _, .goto h, d, _ => by
    rw [item_goto]
    have h1 := (sp_label h).append (sp_semiNl cf) (fun r _ => wordEnds_ascii (by decide) (by decide))
    have := (sp_kw "Перейти" .kGoTo h1).layout (sp_layout cf d)
    have e : "Перейти ~".toList = "Перейти".toList ++ [' ', '~'] := rfl
    rw [e]
    simp only [List.append_assoc, Stmt.toks, Expr.toks, Sep.tok, List.cons_append, List.nil_append] at this ⊢
    exact this
theorem ReEl.sp {g : Bool} {cf : PrintConf} : ∀ {l es}, ReEl g l es → ∀ (d : Nat), tryOkL cf l → Sp false (printElifs cf d l) es.toks Any
  | _, _, .nil, d, _ => by
    rw [elifs_nil]
    exact sp_nil
  | _, _, .cons hc hb hr, d, ht => by
    rw [elifs_cons]
    unfold tryOkL at ht
    have ht1 := ht.1
    unfold tryOk at ht1
    have h1 := (hb.sp (d + 1) ht1.1).both (hr.sp d ht.2)
    have h2 := (sp_kw "ИначеЕсли" .kElseIf (hc.sp.thenDo h1)).layout (sp_layout cf d)
    have e : "ИначеЕсли ".toList = "ИначеЕсли".toList ++ [' '] := rfl
    rw [e]
    simp only [Elifs.toks, List.append_assoc, List.cons_append, List.nil_append, prE] at h2 ⊢
    exact h2
theorem ReElse.sp {g : Bool} {cf : PrintConf} : ∀ {l e}, ReElse g l e → ∀ (d : Nat), tryOkL cf l →
    Sp false (match l with | [] => [] | els => cf.sp d ++ "Иначе ".toList ++ printBody cf (d + 1) els) e.toks Any
  | _, _, .none, d, _ => sp_nil
  | [], _, .some h _, d, _ => absurd rfl h
  | s :: l, _, .some _ hb, d, ht => by
    have := (sp_kw "Иначе" .kElse (hb.sp (d + 1) ht)).layout (sp_layout cf d)
    have e : "Иначе ".toList = "Иначе".toList ++ [' '] := rfl
    simp only [Else.toks, e, List.append_assoc, List.cons_append, List.nil_append] at this ⊢
    exact this
theorem ReB.sp {g : Bool} {cf : PrintConf} : ∀ {l b}, ReB g l b → ∀ (d : Nat), tryOkL cf l → Sp false (printBody cf d l) b.toks Any
  | _, _, .empty, d, _ => by
    rw [printBody_eq]
    have := (sp_nil (F := Any)).layout (nl_layout cf 1)
    simpa [bodyText, Block.toks] using this
  | _, _, .body hb, d, ht => by
    rw [printBody_eq]
    have := (hb.sp d ht).blanks (nl_layout cf 1)
    simpa [Block.toks, Body.toks, OptStmt.toks] using this
theorem ReBody.sp {g : Bool} {cf : PrintConf} : ∀ {l b p}, ReBody g l b p → ∀ (d : Nat), tryOkL cf l → Sp false (bodyText cf d l) (b.toks ++ [p.tok]) Any
  | _, _, _, .one h, d, ht => by
    have := (h.sp d ht.1).layout (nl_layout cf 1)
    simpa [bodyText, Body.toks] using this
  | _, _, _, .snoc (l := l) (s := s) hb h, d, ht => by
    have ht' := tryOkL_append ht
    have h1 := (h.sp d ht'.2.1).layout (nl_layout cf 1)
    have := (hb.sp d ht'.1).both h1
    rw [bodyText_snoc]
    simpa [Body.toks, Block.toks, OptStmt.toks] using this
end

end Verif
