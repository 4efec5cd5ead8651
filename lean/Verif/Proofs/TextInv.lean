import Verif.Proofs.Text
/-!
# Every token of a text can be written
-/
namespace Verif
open Spec Lexer LR

variable [Letters]

theorem lexNext_parts {t t' : Tok} {k : Nat} (h : lexNext t = (t', .ok (some k))) :
    (nextRaw t.prevDot (skipTrivia t.rest)).res = .ok (some k) ∧ t'.literal = (nextRaw t.prevDot (skipTrivia t.rest)).literal ∧
      t'.prevDot = (!t.prevDot && (skipTrivia t.rest).head? == some '.') ∧
      valueOf k t'.literal t.value = .ok t'.value := by
  have h2 : finish t (!t.prevDot && (skipTrivia t.rest).head? == some '.') (nextRaw t.prevDot (skipTrivia t.rest)) = (t', .ok (some k)) := h
  unfold finish at h2
  split at h2
  · injection h2 with _ h2; cases h2
  · injection h2 with _ h2; cases h2
  · rename_i k' hk
    split at h2
    · rename_i v hv
      injection h2 with h2 h3
      injection h3 with h3; injection h3 with h3
      subst h2; subst h3
      exact ⟨hk, rfl, rfl, hv⟩
    · injection h2 with _ h2; cases h2

omit [Letters] in
theorem key_kind (x : Nat × Tok) : (key x).kind = x.1 := by
  unfold key
  split
  · rfl
  · split <;> rfl

omit [Letters] in
/-- The numbers of the keywords. -/
theorem keyword_terminal {w : String} {k : Nat} (h : (w, k) ∈ keywordTable) : ∃ t : Terminal, t.kind = k ∧
    t ∉ [Terminal.ktoken_identifier, .kGoToLabel, .kDirective, .kNumber, .kString, .kDate] := by
  have hall : ∀ p ∈ keywordTable, p.2 ∈ [Terminal.kProcedure, .kVar, .kEndProcedure, .kIf, .kThen, .kElseIf, .kElse, .kEndIf,
      .kFor, .kEach, .kIn, .kTo, .kLoop, .kEndLoop, .kBreak, .kNot, .kValueParam, .kWhile, .kContinue, .kTry, .kCatch, .kEndTry, .kNew,
      .kFunction, .kEndFunction, .kReturn, .kThrow, .kOR, .kAnd, .kTrue, .kFalse, .kUndefind, .kExport, .kGoTo, .kExecute].map Terminal.kind := by
    decide +kernel
  have hall2 : ∀ t ∈ [Terminal.kProcedure, .kVar, .kEndProcedure, .kIf, .kThen, .kElseIf, .kElse, .kEndIf,
      .kFor, .kEach, .kIn, .kTo, .kLoop, .kEndLoop, .kBreak, .kNot, .kValueParam, .kWhile, .kContinue, .kTry, .kCatch, .kEndTry, .kNew,
      .kFunction, .kEndFunction, .kReturn, .kThrow, .kOR, .kAnd, .kTrue, .kFalse, .kUndefind, .kExport, .kGoTo, .kExecute],
      t ∉ [Terminal.ktoken_identifier, .kGoToLabel, .kDirective, .kNumber, .kString, .kDate] := by decide
  obtain ⟨t, ht, e⟩ := List.mem_map.1 (hall _ h)
  exact ⟨t, e, hall2 t ht⟩

omit [Letters] in
theorem layout_of_split {w r : List Char} {c : Char} (h : Layout w ∨ (c :: r = [] ∧ FinalLayout w)) : Layout w := by
  rcases h with h | ⟨h, _⟩
  · exact h
  · cases h

theorem wordEnds_drop (r : List Char) : WordEnds (scanIdentifier r).2 := by
  rw [wordEnds_iff]
  intro c r' e
  have := List.head?_dropWhile_not isWordChar r
  rw [show r.dropWhile isWordChar = c :: r' from e] at this
  simpa using this

/-- Every token that is read is written in front of the rest of the text, behind layout; after a string or date the blanks behind it are
skipped as well. -/
theorem lexNext_split {t t' : Tok} {k : Nat} (h : lexNext t = (t', .ok (some k))) :
    ∃ l w r b F, t.rest = l ++ (w ++ r) ∧ Layout l ∧ Lexeme t.prevDot w (key (k, t')) F ∧ F r ∧ r = b ++ t'.rest ∧ ∀ c ∈ b, Blank c := by
  obtain ⟨h1, h2, h3, h4⟩ := lexNext_parts h
  have hg := lexNext_good h
  have hrest : t'.rest = (nextRaw t.prevDot (skipTrivia t.rest)).rest := by rw [← lexNext_rest, h]
  obtain ⟨l0, hl0, hl0'⟩ := skipTrivia_split t.rest
  have hcl := skipTrivia_clean t.rest
  cases hs : skipTrivia t.rest with
  | nil => rw [hs] at h1; simp [nextRaw] at h1
  | cons c r =>
    have h1' := h1
    rw [hs] at h1 h2 hrest hl0 hl0' hcl
    have hlay : Layout l0 := layout_of_split hl0'
    rcases nextRaw_cases h1 with ⟨_, hk⟩ | ⟨rfl, rfl⟩ | ⟨hc, rfl⟩ | ⟨rfl, rfl⟩ | ⟨hp, rfl⟩ | ⟨rfl, rfl⟩ | ⟨rfl, rfl⟩ | ⟨rfl, hk⟩ | ⟨rfl, hk⟩ |
      ⟨rfl, rfl⟩ | ⟨rfl, rfl⟩
    · obtain ⟨l, w, r, e, hl, hw, hr⟩ := lexNext_word_inv (t := t) (k := k) (by rw [h]) hk
      obtain ⟨g1, g2, g3, _⟩ := lexNext_word t hl hw hr e
      rw [h] at g1 g2 g3
      dsimp only at g1 g2 g3
      injection g1 with g1; injection g1 with g1
      rw [List.append_assoc] at e
      by_cases hi : k = identNumber
      · subst hi
        have : key (identNumber, t') = ident w := by
          show (⟨_, t'.literal, _⟩ : Key) = _
          rw [g2]; rfl
        rw [this]
        refine ⟨l, w, r, [], _, e, hl, .name hw ?_, hr, by rw [g3]; rfl, nofun⟩
        cases hd : t.prevDot with
        | true => exact .inl rfl
        | false =>
          rw [hd] at g1
          exact .inr (by rw [g1]; exact wordKind_spec w)
      · cases hd : t.prevDot with
        | true => rw [hd, wordKind_true] at g1; exact absurd g1 hi
        | false =>
          rw [hd] at g1
          have hkd : KindOf w k := g1 ▸ wordKind_spec w
          have hkd' := hkd
          cases hkd with
          | ident => exact absurd rfl hi
          | keyword hm =>
            obtain ⟨T, rfl, hT⟩ := keyword_terminal hm
            by_cases e1 : T = .kTrue
            · subst e1
              have : key (Terminal.kTrue.kind, t') = literal .kTrue (.bool true) := by
                show (⟨_, _, t'.value⟩ : Key) = _
                rw [hg.tru rfl]; rfl
              rw [this]
              exact ⟨l, w, r, [], _, e, hl, .tru hw hkd', hr, by rw [g3]; rfl, nofun⟩
            by_cases e2 : T = .kFalse
            · subst e2
              have : key (Terminal.kFalse.kind, t') = literal .kFalse (.bool false) := by
                show (⟨_, _, t'.value⟩ : Key) = _
                rw [hg.fls rfl]; rfl
              rw [this]
              exact ⟨l, w, r, [], _, e, hl, .fls hw hkd', hr, by rw [g3]; rfl, nofun⟩
            by_cases e3 : T = .kExecute
            · subst e3
              have : key (Terminal.kExecute.kind, t') = named .kExecute w := by
                show (⟨_, t'.literal, _⟩ : Key) = _
                rw [g2]; rfl
              rw [this]
              exact ⟨l, w, r, [], _, e, hl, .exec hw hkd', hr, by rw [g3]; rfl, nofun⟩
            have hT' : T ∉ [Terminal.ktoken_identifier, .kGoToLabel, .kDirective, .kExecute, .kNumber, .kString, .kDate, .kTrue, .kFalse] := by
              simp only [List.mem_cons, List.not_mem_nil, or_false] at hT ⊢
              tauto
            rw [key_word hT']
            refine ⟨l, w, r, [], _, e, hl, .keyword hw hkd' ?_, hr, by rw [g3]; rfl, nofun⟩
            simp only [List.mem_cons, List.not_mem_nil, or_false] at hT ⊢
            tauto
    · have hm : ('.', Terminal.dot) ∈ marks := by decide
      rw [punct_raw hm] at hrest
      exact ⟨l0, ['.'], r, [], _, hl0, hlay, .mark hm, fun e => absurd e (by decide), by rw [hrest]; rfl, nofun⟩
    · obtain ⟨l, a, w, r, e, hl, ha, hw, hr⟩ := lexNext_number_inv (t := t) (by rw [h])
      have := lexNext_number t hl ha hw hr e
      rw [h] at this
      split at this
      · injection this with _ e; cases e
      · rename_i hno
        split at this
        · rename_i x hx
          obtain ⟨v, hv⟩ := numLit_of_parse hw ha hx
          injection this with e' _
          subst e'
          refine ⟨l, a :: w, r, [], _, by rw [e, List.append_assoc], hl, .number hv hx, ?_, rfl, nofun⟩
          rintro c r' rfl (hh | hh | hh)
          · exact hr c r' rfl (.inl hh)
          · exact hr c r' rfl (.inr hh)
          · apply hno
            simp only [List.head?_cons, Option.any_some]
            exact (isLetter_iff c).2 hh
        · injection this with _ e; cases e
    · obtain ⟨l, s, ds, d, r, e, hl, g1, g2, g3, g4⟩ := lexNext_date_inv (t := t) (by rw [h])
      rw [h] at g4
      dsimp only at g4
      subst g4
      obtain ⟨b, hb, hbr⟩ := skipSpace_split r
      exact ⟨l, '\'' :: (s ++ ['\'']), r, b, _, by rw [e]; simp, hl, .date g1 g3, g2, hbr, fun c hc => (isSpace_iff c).1 (hb c hc)⟩
    · have hall : isPunct c = true → ∃ T, (c, T) ∈ marks ∧ T.kind = c.toNat ∧
        T ∉ [Terminal.ktoken_identifier, .kGoToLabel, .kDirective, .kExecute, .kNumber, .kString, .kDate, .kTrue, .kFalse] := by
        simp only [isPunct, Bool.or_eq_true, beq_iff_eq, or_imp]
        refine ⟨⟨⟨⟨⟨⟨⟨⟨⟨⟨⟨⟨?_, ?_⟩, ?_⟩, ?_⟩, ?_⟩, ?_⟩, ?_⟩, ?_⟩, ?_⟩, ?_⟩, ?_⟩, ?_⟩, ?_⟩ <;> rintro rfl
        · exact ⟨.slash, by decide⟩
        · exact ⟨.semi, by decide⟩
        · exact ⟨.lpar, by decide⟩
        · exact ⟨.rpar, by decide⟩
        · exact ⟨.comma, by decide⟩
        · exact ⟨.minus, by decide⟩
        · exact ⟨.plus, by decide⟩
        · exact ⟨.star, by decide⟩
        · exact ⟨.quest, by decide⟩
        · exact ⟨.lbr, by decide⟩
        · exact ⟨.rbr, by decide⟩
        · exact ⟨.colon, by decide⟩
        · exact ⟨.percent, by decide⟩
      obtain ⟨T, hT, e, hn⟩ := hall hp
      rw [punct_raw hT] at hrest
      rw [← e, key_word hn]
      refine ⟨l0, [c], r, [], _, hl0, hlay, .mark hT, ?_, by rw [hrest]; rfl, nofun⟩
      rintro rfl r' rfl
      exact hcl.2.2 r' rfl
    · have hm : ('=', Terminal.kEQUAL) ∈ marks := by decide
      rw [punct_raw hm] at hrest
      exact ⟨l0, ['='], r, [], _, hl0, hlay, .mark hm, fun e => absurd e (by decide), by rw [hrest]; rfl, nofun⟩
    · obtain ⟨l, s, v, r, e, hl, hv, hr⟩ := lexNext_string_inv (t := t) (by rw [h])
      obtain ⟨_, g⟩ := lexNext_string t hl hv hr e
      rw [h] at g
      dsimp only at g
      subst g
      obtain ⟨b, hb, hbr⟩ := skipSpace_split r
      exact ⟨l, '"' :: (s ++ ['"']), r, b, _, by rw [e]; simp, hl, .string hv, hr, hbr, fun c hc => (isSpace_iff c).1 (hb c hc)⟩
    · have hraw : nextRaw t.prevDot ('<' :: r) = lexLess r := by
        unfold nextRaw
        dsimp only
        rw [isLetter_ascii_false (by decide) (by decide) (by decide)]; rfl
      rw [hraw] at hrest h1
      unfold lexLess at hrest h1
      split at hrest
      · rename_i r'
        have hk' : k = tNeEQ := by injection h1 with h1; injection h1 with h1; exact h1.symm
        subst hk'
        exact ⟨l0, ['<', '>'], r', [], _, hl0, hlay, .ne, trivial, by rw [hrest]; rfl, nofun⟩
      · rename_i r'
        have hk' : k = tLE := by injection h1 with h1; injection h1 with h1; exact h1.symm
        subst hk'
        exact ⟨l0, ['<', '='], r', [], _, hl0, hlay, .le, trivial, by rw [hrest]; rfl, nofun⟩
      · rename_i hn1 hn2
        have hk' : k = '<'.toNat := by
          split at h1
          · exact absurd rfl (hn1 _)
          · exact absurd rfl (hn2 _)
          · injection h1 with h1; injection h1 with h1; exact h1.symm
        subst hk'
        exact ⟨l0, ['<'], r, [], _, hl0, hlay, .lt, ⟨fun r' e => hn1 r' e, fun r' e => hn2 r' e⟩, by rw [hrest]; rfl, nofun⟩
    · have hraw : nextRaw t.prevDot ('>' :: r) = lexGreater r := by
        unfold nextRaw
        dsimp only
        rw [isLetter_ascii_false (by decide) (by decide) (by decide)]; rfl
      rw [hraw] at hrest h1
      unfold lexGreater at hrest h1
      split at hrest
      · rename_i r'
        have hk' : k = tGE := by injection h1 with h1; injection h1 with h1; exact h1.symm
        subst hk'
        exact ⟨l0, ['>', '='], r', [], _, hl0, hlay, .ge, trivial, by rw [hrest]; rfl, nofun⟩
      · rename_i hn1
        have hk' : k = '>'.toNat := by
          split at h1
          · exact absurd rfl (hn1 _)
          · injection h1 with h1; injection h1 with h1; exact h1.symm
        subst hk'
        exact ⟨l0, ['>'], r, [], _, hl0, hlay, .gt, fun r' e => hn1 r' e, by rw [hrest]; rfl, nofun⟩
    · have hl : isLetter '&' = false := isLetter_ascii_false (by decide) (by decide) (by decide)
      have hraw : nextRaw t.prevDot ('&' :: r) = lexDirective r := by
        unfold nextRaw
        dsimp only
        rw [hl]; rfl
      rw [hraw] at h1 h2 hrest
      unfold lexDirective at h1 h2 hrest
      dsimp only at h1 h2 hrest
      split at h1
      · rename_i k' hk'
        rw [hk'] at h2 hrest
        dsimp only at h2 hrest
        injection h1 with h1; injection h1 with h1
        subst h1
        have hd := (directives_iff _).1 hk'
        rw [lower_eq] at hd
        have : key (tDirective, t') = named .kDirective ('&' :: (scanIdentifier r).1) := by
          show (⟨_, t'.literal, _⟩ : Key) = _
          rw [h2]; rfl
        rw [this]
        refine ⟨l0, '&' :: (scanIdentifier r).1, (scanIdentifier r).2, [], _, ?_, hlay, .directive hd, wordEnds_drop r, by rw [hrest]; rfl, nofun⟩
        rw [hl0]
        show _ = l0 ++ ('&' :: (r.takeWhile isWordChar ++ r.dropWhile isWordChar))
        rw [List.takeWhile_append_dropWhile]
      · simp at h1
    · have hl : isLetter '~' = false := isLetter_ascii_false (by decide) (by decide) (by decide)
      have hraw : nextRaw t.prevDot ('~' :: r) = lexLabel r := by
        unfold nextRaw
        dsimp only
        rw [hl]; rfl
      rw [hraw] at h2 hrest
      unfold lexLabel at h2 hrest
      have : key (tGoToLabel, t') = named .kGoToLabel (r.takeWhile isWordChar) := by
        show (⟨_, t'.literal, _⟩ : Key) = _
        rw [h2]; rfl
      rw [this]
      refine ⟨l0, '~' :: r.takeWhile isWordChar, (scanIdentifier r).2, [], _, ?_, hlay, .label fun c hc => (isWordChar_iff c).1 ?_, wordEnds_drop r,
        by rw [hrest]; rfl, nofun⟩
      · rw [hl0]
        show _ = l0 ++ ('~' :: (r.takeWhile isWordChar ++ r.dropWhile isWordChar))
        rw [List.takeWhile_append_dropWhile]
      · exact List.all_eq_true.1 (List.all_takeWhile (p := isWordChar) (l := r)) c hc

/-- Every token that is read is one that can be written. -/
theorem key_lexeme {t t' : Tok} {k : Nat} (h : lexNext t = (t', .ok (some k))) :
    (∃ w F, Lexeme t.prevDot w (key (k, t')) F) ∧ t'.prevDot = dotAfter t.prevDot (key (k, t')) := by
  obtain ⟨h1, h2, h3, h4⟩ := lexNext_parts h
  constructor
  · obtain ⟨l, w, r, b, F, -, -, hF, -⟩ := lexNext_split h
    exact ⟨w, F, hF⟩
  · rw [h3, dotAfter]
    congr 1
    rw [Bool.eq_iff_iff, beq_iff_eq, decide_eq_true_iff, ← nextRaw_dot_iff t.prevDot, h1]
    constructor
    · intro e
      injection e with e; injection e with e
      rw [e]; rfl
    · intro e
      have := congrArg Key.kind e
      rw [key_kind] at this
      simp only at this
      rw [this]; rfl

omit [Letters] in
theorem layout_blanks {b l : List Char} (hb : ∀ c ∈ b, Blank c) (h : Layout l) : Layout (b ++ l) := by
  induction b with
  | nil => exact h
  | cons c b ih =>
    simp only [List.mem_cons, forall_eq_or_imp] at hb
    exact .blank hb.1 (ih hb.2)

omit [Letters] in
theorem finalLayout_blanks {b l : List Char} (hb : ∀ c ∈ b, Blank c) (h : FinalLayout l) : FinalLayout (b ++ l) := by
  cases h with
  | layout h => exact .layout (layout_blanks hb h)
  | comment h ht => rw [← List.append_assoc]; exact .comment (layout_blanks hb h) ht
  | hash h ht => rw [← List.append_assoc]; exact .hash (layout_blanks hb h) ht

/-- Blanks may be put in front of a written text. -/
theorem written_blanks {dot : Bool} {b s : List Char} {ks : List Key} (hb : ∀ c ∈ b, Blank c) (h : Written dot s ks) : Written dot (b ++ s) ks := by
  cases h with
  | done h => exact .done (finalLayout_blanks hb h)
  | next hl hw hF h => rw [← List.append_assoc]; exact .next (layout_blanks hb hl) hw hF h

/-- A text that has tokens is a writing of them. -/
theorem tokens_written {t : Tok} {l : List (Nat × Tok)} (h : Tokens t l) : Written t.prevDot t.rest (l.map key) := by
  induction h with
  | @eof t h =>
    refine .done ?_
    have h' := (lexNext_eof_iff t).1 h
    obtain ⟨w, h1, h2⟩ := skipTrivia_split t.rest
    rw [h', List.append_nil] at h1
    rw [h1]
    rcases h2 with h2 | ⟨_, h2⟩
    · exact .layout h2
    · exact h2
  | @next t t' k l hx _ ih =>
    obtain ⟨l0, w, r, b, F, h1, h2, h3, h4, h5, h6⟩ := lexNext_split hx
    rw [(key_lexeme hx).2] at ih
    rw [h1, List.map_cons]
    refine .next h2 h3 h4 ?_
    rw [h5]
    exact written_blanks h6 ih

/-- Tokens that can be written one after the other. -/
inductive KeysOk : Bool → List Key → Prop
  | nil {dot} : KeysOk dot []
  | cons {dot k ks} : (∃ w F, Lexeme dot w k F) → KeysOk (dotAfter dot k) ks → KeysOk dot (k :: ks)

theorem tokens_keysOk {t : Tok} {l : List (Nat × Tok)} (h : Tokens t l) : KeysOk t.prevDot (l.map key) := by
  induction h with
  | eof => exact .nil
  | next hx _ ih =>
    obtain ⟨h1, h2⟩ := key_lexeme hx
    rw [h2] at ih
    exact .cons h1 ih

theorem hasKeys_ok {s : List Char} {ks : List Key} (h : HasKeys s ks) : KeysOk false ks := by
  obtain ⟨l, hl, rfl⟩ := h
  exact tokens_keysOk hl

end Verif
