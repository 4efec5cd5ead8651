import Verif.Spec.Text
import Verif.Spec.Program
import Verif.Proofs.LexDate
import Verif.Proofs.LR.Good
/-!
# Written texts have the tokens that are written
-/
namespace Verif
open Spec Lexer LR

variable [Letters]

theorem lexNext_congr {t u : Tok} (h1 : t.literal = u.literal) (h2 : t.value = u.value) (h3 : t.prevDot = u.prevDot)
    (h4 : skipTrivia t.rest = skipTrivia u.rest) : lexNext t = lexNext u := by
  unfold lexNext
  rw [h4, h3]
  unfold finish
  rw [h2]

omit [Letters] in
theorem key_word {t : Terminal} {x : Tok}
    (h : t ∉ [Terminal.ktoken_identifier, .kGoToLabel, .kDirective, .kExecute, .kNumber, .kString, .kDate, .kTrue, .kFalse]) :
    key (t.kind, x) = word t := by
  revert h
  cases t <;> first | (intro _; rfl) | (intro h; exact absurd (by decide) h)

omit [Letters] in
theorem skipTrivia_skipSpace (r : List Char) : skipTrivia (skipSpace r) = skipTrivia r := by
  rw [skipTrivia_eq, skipTrivia_eq, skipSpace_idem]

/-- First characters that begin a token by themselves. -/
theorem ascii_clean {c : Char} {r : List Char} (h1 : isSpace c = false) (h2 : c = '/' → NotNext '/' r) (h3 : c ≠ '#') : Clean (c :: r) := by
  refine ⟨?_, ?_, ?_⟩
  · intro d r' e; cases e; exact h1
  all_goals
    intro r' e
    cases e
    first | exact h2 rfl _ rfl | exact h3 rfl

/-- What one call does with a lexeme. -/
def Gets (t : Tok) (k : Key) (r : List Char) : Prop :=
  ∃ n t', lexNext t = (t', .ok (some n)) ∧ key (n, t') = k ∧ t'.prevDot = dotAfter t.prevDot k ∧ skipTrivia t'.rest = skipTrivia r

theorem gets_word {t : Tok} {w r : List Char} (ht : t.rest = w ++ r) (hw : Word w) (hr : WordEnds r) (k : Key)
    (hk : ∀ t', t'.literal = w → Good (wordKind t.prevDot w, t') → key (wordKind t.prevDot w, t') = k) (hd : k ≠ word .dot) : Gets t k r := by
  obtain ⟨h1, h2, h3, h4⟩ := lexNext_word t (l := []) .nil hw hr (by simpa using ht)
  have h : lexNext t = ((lexNext t).1, .ok (some (wordKind t.prevDot w))) := by rw [← h1]
  refine ⟨_, _, h, hk _ h2 (lexNext_good h), ?_, by rw [h3]⟩
  rw [h4]
  simp [dotAfter, hd]

/-- The simple branches of `nextRaw`. -/
theorem gets_raw {t : Tok} {c : Char} {s lit r : List Char} {n : Nat} {k : Key} (ht : t.rest = c :: s) (hc : Clean (c :: s))
    (hraw : nextRaw t.prevDot (c :: s) = ⟨.ok (some n), lit, r⟩) (hn : n ≠ tNumber ∧ n ≠ tDate)
    (hk : ∀ t', t'.literal = lit → key (n, t') = k) (hd : k = word .dot ↔ c = '.') : Gets t k r := by
  obtain ⟨v, hv⟩ := valueOf_ok hn.1 hn.2 lit t.value
  have h : lexNext t = (⟨lit, v, r, !t.prevDot && (c == '.')⟩, .ok (some n)) := by
    unfold lexNext
    dsimp only
    rw [ht, skipTrivia_of_clean hc, hraw]
    unfold finish
    dsimp only
    rw [hv]
    rfl
  refine ⟨_, _, h, hk _ rfl, ?_, rfl⟩
  simp only [dotAfter, hd]
  rfl

theorem punct_raw {b : Bool} {c : Char} {t : Terminal} (h : (c, t) ∈ marks) (r : List Char) :
    nextRaw b (c :: r) = ⟨.ok (some t.kind), [c], r⟩ := by
  have hl : isLetter c = false := by
    have : ∀ p ∈ marks, p.1.toNat < 128 ∧ p.1.isAlpha = false ∧ p.1 ≠ '_' := by decide
    obtain ⟨h1, h2, h3⟩ := this _ h
    exact isLetter_ascii_false h1 h2 h3
  unfold nextRaw
  dsimp only
  rw [hl]
  simp only [marks, List.mem_cons, List.not_mem_nil, or_false, Prod.mk.injEq] at h
  rcases h with ⟨rfl, rfl⟩ | ⟨rfl, rfl⟩ | ⟨rfl, rfl⟩ | ⟨rfl, rfl⟩ | ⟨rfl, rfl⟩ | ⟨rfl, rfl⟩ | ⟨rfl, rfl⟩ | ⟨rfl, rfl⟩ | ⟨rfl, rfl⟩ |
    ⟨rfl, rfl⟩ | ⟨rfl, rfl⟩ | ⟨rfl, rfl⟩ | ⟨rfl, rfl⟩ | ⟨rfl, rfl⟩ | ⟨rfl, rfl⟩ <;> rfl

omit [Letters] in
theorem kind_dot : ∀ t : Terminal, t.kind = Terminal.dot.kind → t = .dot := by
  intro t
  cases t <;> first | (intro _; rfl) | (intro h; exact absurd h (by decide))

omit [Letters] in
theorem notDot {t : Terminal} {n : Name} {v : Val} (h : t ≠ .dot) : (⟨t.kind, n, v⟩ : Key) ≠ word .dot :=
  fun e => h (kind_dot t (congrArg Key.kind e))

omit [Letters] in
theorem directives_iff (w : List Char) : directives.lookup w = some tDirective ↔ String.ofList w ∈ directiveNames := by
  have h : directiveNames = directives.map fun p => String.ofList p.1 := by decide +kernel
  have h2 : ∀ p ∈ directives, p.2 = tDirective := by decide +kernel
  rw [h, List.mem_map]
  constructor
  · intro h
    obtain ⟨l1, l2, he, _⟩ := List.lookup_eq_some_iff.1 h
    exact ⟨(w, tDirective), by rw [he]; simp, rfl⟩
  · rintro ⟨p, hp, he⟩
    have hw : p.1 = w := by simpa using congrArg String.toList he
    cases hl : directives.lookup w with
    | some k => rw [directive_num hl]
    | none =>
      rw [List.lookup_eq_none_iff] at hl
      have := hl p hp
      simp [hw] at this

/-- Names of directives consist of word characters. -/
theorem directive_chars {w : List Char} (h : String.ofList ('&' :: w.map lowerChar) ∈ directiveNames) : ∀ c ∈ w, isWordChar c = true := by
  have hall : ∀ s ∈ directiveNames, ∀ c ∈ s.toList.tail, (0x410 ≤ c.toNat ∧ c.toNat ≤ 0x44F) := by decide +kernel
  intro c hc
  rw [← isWordChar_lowerChar]
  have h1 := hall _ h (lowerChar c) (by simp only [String.toList_ofList, List.tail_cons]; exact List.mem_map_of_mem hc)
  rw [isWordChar_iff]
  exact .inl (.inl (Letters.rus _ (.inl h1)))

omit [Letters] in
theorem dateDigits_parse {ds : List Char} (hd : ∀ c ∈ ds, Digit c) {t : Time} (hc : CalendarDate t) (h : DateDigits t ds) :
    Time.parse ds.length ds = some t := by
  rcases (dateDigits_iff _ _).1 h with ⟨h1, h2, h3, h4⟩ | ⟨h1, h2⟩ | h1
  · have : ds.length = 8 := by rw [h4]; rfl
    rw [this, parse8 hd]; exact ⟨hc, h1, h2, h3, h4⟩
  · have : ds.length = 12 := by rw [h2]; rfl
    rw [this, parse12 hd]; exact ⟨hc, h1, h2⟩
  · have : ds.length = 14 := by rw [h1]; rfl
    rw [this, parse14 hd]; exact ⟨hc, h1⟩

omit [Letters] in
theorem dateValue_fun {ds : List Char} (hd : ∀ c ∈ ds, Digit c) {t u : Time} (h : DateValue ds t) (g : DateValue ds u) : t = u := by
  cases h with
  | zero _ h0 =>
    cases g with
    | zero => rfl
    | date hn => obtain ⟨c, hc, hc'⟩ := hn; exact absurd (h0 c hc) hc'
  | date hn h1 h2 =>
    cases g with
    | zero _ h0 => obtain ⟨c, hc, hc'⟩ := hn; exact absurd (h0 c hc) hc'
    | date _ g1 g2 =>
      have := dateDigits_parse hd h1 h2
      rw [dateDigits_parse hd g1 g2] at this
      exact (Option.some.inj this).symm

theorem lexeme_gets {t : Tok} {w r : List Char} {k : Key} {F : List Char → Prop} (h : Lexeme t.prevDot w k F) (hF : F r)
    (ht : t.rest = w ++ r) : Gets t k r := by
  generalize hd : t.prevDot = dot at h
  cases h with
  | name hw hk =>
    refine gets_word ht hw hF _ ?_ (notDot (by decide))
    intro t' h1 _
    have : wordKind t.prevDot w = identNumber := by
      rw [hd]
      cases dot with
      | true => exact wordKind_true w
      | false => exact kindOf_fun (wordKind_spec w) (hk.resolve_left (by decide))
    rw [this]
    show (⟨_, t'.literal, _⟩ : Key) = _
    rw [h1]
    rfl
  | @keyword w t' hw hk hn =>
    have hwn : ∀ {n}, KindOf w n → n ≠ 46 ∧ n ≠ tNumber ∧ n ≠ tDate ∧ n ≠ tString ∧ n ≠ tDirective ∧ n ≠ tGoToLabel := by
      intro n h
      have hall : ∀ p ∈ keywordTable, p.2 ≠ 46 ∧ p.2 ≠ tNumber ∧ p.2 ≠ tDate ∧ p.2 ≠ tString ∧ p.2 ≠ tDirective ∧ p.2 ≠ tGoToLabel := by
        decide +kernel
      cases h with
      | keyword h => exact hall _ h
      | ident => decide
    refine gets_word ht hw hF _ ?_ (notDot ?_)
    · intro t' h1 _
      rw [hd, kindOf_fun (wordKind_spec w) hk]
      refine key_word ?_
      intro h
      simp only [List.mem_cons, List.not_mem_nil, or_false] at h hn
      push Not at hn
      rcases h with rfl | rfl | rfl | rfl | rfl | rfl | rfl | rfl | rfl
      · exact hn.1 rfl
      · exact absurd (hwn hk) (by decide)
      · exact absurd (hwn hk) (by decide)
      · exact hn.2.2.2 rfl
      · exact absurd (hwn hk) (by decide)
      · exact absurd (hwn hk) (by decide)
      · exact absurd (hwn hk) (by decide)
      · exact hn.2.1 rfl
      · exact hn.2.2.1 rfl
    · rintro rfl
      exact absurd (hwn hk) (by decide)
  | tru hw hk =>
    refine gets_word ht hw hF _ ?_ (notDot (by decide))
    intro t' h1 hg
    rw [hd, kindOf_fun (wordKind_spec w) hk] at hg ⊢
    show (⟨_, _, t'.value⟩ : Key) = _
    rw [hg.tru rfl]; rfl
  | fls hw hk =>
    refine gets_word ht hw hF _ ?_ (notDot (by decide))
    intro t' h1 hg
    rw [hd, kindOf_fun (wordKind_spec w) hk] at hg ⊢
    show (⟨_, _, t'.value⟩ : Key) = _
    rw [hg.fls rfl]; rfl
  | exec hw hk =>
    refine gets_word ht hw hF _ ?_ (notDot (by decide))
    intro t' h1 hg
    rw [hd, kindOf_fun (wordKind_spec w) hk]
    show (⟨_, t'.literal, _⟩ : Key) = _
    rw [h1]; rfl
  | @mark dot c t' hm =>
    have hall : ∀ p ∈ marks, isSpace p.1 = false ∧ p.1 ≠ '#' ∧ p.2.kind ≠ tNumber ∧ p.2.kind ≠ tDate ∧
        p.2 ∉ [Terminal.ktoken_identifier, .kGoToLabel, .kDirective, .kExecute, .kNumber, .kString, .kDate, .kTrue, .kFalse] ∧
        (word p.2 = word .dot ↔ p.1 = '.') := by decide
    obtain ⟨h1, h2, h3, h4, h5, h6⟩ := hall _ hm
    exact gets_raw ht (ascii_clean h1 hF h2) (punct_raw hm r) ⟨h3, h4⟩ (fun t' _ => key_word h5) h6
  | ne =>
    refine gets_raw (lit := ['<', '>']) (n := tNeEQ) ht (ascii_clean (by decide) (fun h => absurd h (by decide)) (by decide)) ?_ (by decide) (fun t' _ => rfl) (by decide)
    unfold nextRaw
    dsimp only
    rw [isLetter_ascii_false (by decide) (by decide) (by decide)]; rfl
  | le =>
    refine gets_raw (lit := ['<', '=']) (n := tLE) ht (ascii_clean (by decide) (fun h => absurd h (by decide)) (by decide)) ?_ (by decide) (fun t' _ => rfl) (by decide)
    unfold nextRaw
    dsimp only
    rw [isLetter_ascii_false (by decide) (by decide) (by decide)]; rfl
  | ge =>
    refine gets_raw (lit := ['>', '=']) (n := tGE) ht (ascii_clean (by decide) (fun h => absurd h (by decide)) (by decide)) ?_ (by decide) (fun t' _ => rfl) (by decide)
    unfold nextRaw
    dsimp only
    rw [isLetter_ascii_false (by decide) (by decide) (by decide)]; rfl
  | lt =>
    refine gets_raw (lit := ['<']) (n := '<'.toNat) ht (ascii_clean (by decide) (fun h => absurd h (by decide)) (by decide)) ?_ (by decide) (fun t' _ => rfl) (by decide)
    unfold nextRaw
    dsimp only
    rw [isLetter_ascii_false (by decide) (by decide) (by decide)]
    show lexLess ([] ++ r) = _
    unfold lexLess
    split
    · next r' e => exact absurd e (hF.1 _)
    · next r' e => exact absurd e (hF.2 _)
    · rfl
  | gt =>
    refine gets_raw (lit := ['>']) (n := '>'.toNat) ht (ascii_clean (by decide) (fun h => absurd h (by decide)) (by decide)) ?_ (by decide) (fun t' _ => rfl) (by decide)
    unfold nextRaw
    dsimp only
    rw [isLetter_ascii_false (by decide) (by decide) (by decide)]
    show lexGreater ([] ++ r) = _
    unfold lexGreater
    split
    · next r' e => exact absurd e (hF _)
    · rfl
  | @number dot w v x hv hx =>
    obtain ⟨a, w', rfl, ha, hw'⟩ : ∃ a w', w = a :: w' ∧ Digit a ∧ ∀ c ∈ w', Digit c ∨ c = '.' := by
      cases hv with
      | @int s h1 h2 =>
        cases w with
        | nil => exact absurd rfl h1
        | cons a w' => exact ⟨a, w', rfl, h2 a (by simp), fun c hc => .inl (h2 c (by simp [hc]))⟩
      | @frac s f h1 h2 h3 =>
        cases s with
        | nil => exact absurd rfl h1
        | cons a w' =>
          refine ⟨a, w' ++ '.' :: f, rfl, h2 a (by simp), ?_⟩
          intro c hc
          rcases List.mem_append.1 hc with hc | hc
          · exact .inl (h2 c (by simp [hc]))
          · rcases List.mem_cons.1 hc with rfl | hc
            · exact .inr rfl
            · exact .inl (h3 c hc)
    have h := lexNext_number t (l := []) .nil ha hw' (fun c r' e h => hF c r' e (h.elim .inl fun h => .inr (.inl h))) (by simpa using ht)
    have hno : r.head?.any isLetter = false := by
      cases r with
      | nil => rfl
      | cons c r' =>
        simp only [List.head?_cons, Option.any_some]
        rw [Bool.eq_false_iff]
        exact fun h => hF c r' rfl (.inr (.inr ((isLetter_iff c).1 h)))
    rw [hno, if_neg (by decide), hx] at h
    refine ⟨tNumber, _, h, rfl, ?_, rfl⟩
    simp [dotAfter, literal, notDot]
  | @string dot s v hs =>
    obtain ⟨h1, h2⟩ := lexNext_string t (l := []) .nil hs hF (by simpa using ht)
    refine ⟨tString, ⟨v, .str v, skipSpace r, false⟩, Prod.ext h2 h1, rfl, ?_, skipTrivia_skipSpace r⟩
    simp [dotAfter, literal, notDot]
  | @date dot s ds d hs hv =>
    rcases lexNext_date t (l := []) .nil hs hF (by simpa using ht) with ⟨d', h1, h2⟩ | ⟨h1, _⟩
    · have : d' = d := dateValue_fun (dateSrc_digits hs) h1 hv
      subst this
      refine ⟨tDate, _, h2, rfl, ?_, skipTrivia_skipSpace r⟩
      simp [dotAfter, literal, notDot]
    · exact absurd ⟨d, hv⟩ h1
  | @directive dot w hw =>
    have hs : scanIdentifier (w ++ r) = (w, r) :=
      Prod.ext (takeWhile_append_stop (directive_chars hw) (wordEnds_iff.1 hF)).1 (takeWhile_append_stop (directive_chars hw) (wordEnds_iff.1 hF)).2
    refine gets_raw (lit := '&' :: w) (n := tDirective) ht (ascii_clean (by decide) (fun h => absurd h (by decide)) (by decide)) ?_ (by decide) ?_ (by simp [notDot, named])
    · unfold nextRaw
      dsimp only
      rw [isLetter_ascii_false (by decide) (by decide) (by decide)]
      show lexDirective (w ++ r) = _
      unfold lexDirective
      dsimp only
      rw [hs]
      dsimp only
      have : directives.lookup (lower ('&' :: w)) = some tDirective := (directives_iff _).2 (by rw [lower_eq]; exact hw)
      rw [this]
    · intro t' h1
      show (⟨_, t'.literal, _⟩ : Key) = _
      rw [h1]; rfl
  | @label dot w hw =>
    have hw' : ∀ c ∈ w, isWordChar c = true := fun c hc => (isWordChar_iff c).2 (hw c hc)
    have hs : scanIdentifier (w ++ r) = (w, r) :=
      Prod.ext (takeWhile_append_stop hw' (wordEnds_iff.1 hF)).1 (takeWhile_append_stop hw' (wordEnds_iff.1 hF)).2
    refine gets_raw (lit := w) (n := tGoToLabel) ht (ascii_clean (by decide) (fun h => absurd h (by decide)) (by decide)) ?_ (by decide) ?_ (by simp [notDot, named])
    · unfold nextRaw
      dsimp only
      rw [isLetter_ascii_false (by decide) (by decide) (by decide)]
      show lexLabel (w ++ r) = _
      unfold lexLabel
      rw [hs]
    · intro t' h1
      show (⟨_, t'.literal, _⟩ : Key) = _
      rw [h1]; rfl

/-- A written text has the tokens that are written. -/
theorem written_tokens {dot : Bool} {s : List Char} {ks : List Key} (h : Written dot s ks) :
    ∀ t : Tok, t.prevDot = dot → skipTrivia t.rest = skipTrivia s → ∃ l, Tokens t l ∧ l.map key = ks := by
  induction h with
  | done hf =>
    intro t _ ht
    exact ⟨[], .eof ((lexNext_eof_iff t).2 (by rw [ht, skipTrivia_final hf])), rfl⟩
  | @next dot l w r k ks F hl hw hF _ ih =>
    intro t hd ht
    rw [skipTrivia_layout hl] at ht
    obtain ⟨n, t', h1, h2, h3, h4⟩ := lexeme_gets (t := ⟨t.literal, t.value, w ++ r, t.prevDot⟩) (r := r) (by rw [hd]; exact hw) hF rfl
    rw [lexNext_congr (t := ⟨t.literal, t.value, w ++ r, t.prevDot⟩) (u := t) rfl rfl rfl ht.symm] at h1
    dsimp only at h3
    rw [hd] at h3
    obtain ⟨l', h5, h6⟩ := ih t' h3 h4
    exact ⟨(n, t') :: l', .next h1 h5, by rw [List.map_cons, h2, h6]⟩

theorem written_keys {s : List Char} {ks : List Key} (h : Written false s ks) : HasKeys s ks :=
  written_tokens h (startTok s) rfl rfl

/-! ## Concrete words -/

/-- Russian letters (without `ё`). -/
theorem rus_word {w : List Char} (hne : w ≠ []) (h : ∀ c ∈ w, 0x410 ≤ c.toNat ∧ c.toNat ≤ 0x44F) : Word w := by
  cases w with
  | nil => exact absurd rfl hne
  | cons c w =>
    have hs : ∀ c : Char, 0x410 ≤ c.toNat ∧ c.toNat ≤ 0x44F → WordStart c := fun c hc => .inl (Letters.rus c (.inl hc))
    exact .mk (hs c (h c (by simp))) fun d hd => .inl (hs d (h d (by simp [hd])))

/-- What is a word part among the characters below 128. -/
theorem ascii_wordPart {c : Char} (h : c.toNat < 128) (h' : c.isAlphanum = false ∧ c ≠ '_') : ¬ WordPart c := by
  rw [← isWordChar_iff]
  simp only [Char.isAlphanum, Bool.or_eq_false_iff] at h'
  have : isDigit c = false := by
    rw [Bool.eq_false_iff]
    intro hc
    have hall : ∀ d ∈ ['0', '1', '2', '3', '4', '5', '6', '7', '8', '9'], d.isDigit = true := by decide
    have := hall c ((isDigit_iff c).1 hc)
    rw [h'.1.2] at this
    cases this
  simp [isWordChar, isLetter_ascii_false h h'.1.1 h'.2, this]

/-- Texts that begin with a character which is not part of a word. -/
theorem wordEnds_ascii {c : Char} {r : List Char} (h : c.toNat < 128) (h' : c.isAlphanum = false ∧ c ≠ '_') : WordEnds (c :: r) := by
  intro d r' e
  cases e
  exact ascii_wordPart h h'

theorem numberEnds_ascii {c : Char} {r : List Char} (h : c.toNat < 128) (h' : c.isAlphanum = false ∧ c ≠ '_') (h3 : c ≠ '.') :
    NumberEnds (c :: r) := by
  intro d r' e
  cases e
  rintro (h1 | rfl | h1)
  · exact ascii_wordPart h h' (.inr h1)
  · exact h3 rfl
  · exact ascii_wordPart h h' (.inl h1)

omit [Letters] in
theorem noQuote_nil : NoQuoteNext [] := by
  intro b s h _ s' e
  subst e
  simp at h

omit [Letters] in
theorem noQuote_cons {c : Char} {r : List Char} (hc : ¬ Blank c) (hq : c ≠ '"') : NoQuoteNext (c :: r) := by
  intro b s h hb s' e
  subst e
  cases b with
  | nil => injection h with h _; exact hq h
  | cons d b => injection h with h _; exact hc (h ▸ hb d (by simp))

omit [Letters] in
theorem noQuote_blank {c : Char} {r : List Char} (hc : c ≠ '"') (h : NoQuoteNext r) : NoQuoteNext (c :: r) := by
  intro b s e hb s' e'
  subst e'
  cases b with
  | nil => injection e with e _; exact hc e
  | cons d b => injection e with _ e; exact h b _ e (fun c hc => hb c (by simp [hc])) _ rfl

theorem Written.cons {dot : Bool} {s : List Char} {ks : List Key} (l w r : List Char) {k : Key} {F : List Char → Prop} (hs : s = l ++ (w ++ r))
    (hl : Layout l) (hw : Lexeme dot w k F) (hF : F r) (h : Written (dotAfter dot k) r ks) : Written dot s (k :: ks) :=
  hs ▸ .next hl hw hF h

end Verif
