import Verif.Spec.Alike
import Verif.Spec.Jumps
import Verif.Props.RenameText
/-!
# Constants, labels and directives do not matter: C80, C81
-/
namespace Verif
open Spec Lexer RenameText

section
variable [Letters]

omit [Letters] in
private theorem dull_ok : Renaming.dull.Ok := ⟨fun _ _ h => h, rfl, rfl, fun _ => rfl⟩

private theorem directive_name {dot : Bool} {w n : List Char} {F} (h : Lexeme dot w (named .kDirective n) F) : n ≠ [] := by
  generalize hk : named .kDirective n = k at h
  cases h with
  | directive => injection hk with _ h; rw [h]; exact nofun
  | keyword hw hkd ht =>
    injection hk with h1 _
    have := kind_inj h1
    subst this
    rcases keyword_plain hkd with e | ⟨t, e, ht'⟩
    · exact absurd e (by decide)
    · have := kind_inj e
      subst this
      exact absurd ht' (by decide)
  | mark hm =>
    injection hk with h1 _
    have := kind_inj h1
    subst this
    exact absurd (mark_plain hm) (by simp)
  | _ => injection hk with h1; exact absurd h1 (by decide)

private theorem number_sign {dot : Bool} {w : List Char} {x : F64} {F} (h : Lexeme dot w (literal .kNumber (.num x)) F) : x.neg = false := by
  generalize hk : literal .kNumber (.num x) = k at h
  cases h with
  | number _ hp =>
    injection hk with _ _ h
    injection h with h
    subst h
    unfold F64.parseFloat at hp
    dsimp only at hp
    split at hp
    · exact F64.ofRat_neg hp
    · split at hp
      · cases hp
      · exact F64.ofRat_neg hp
  | _ => injection hk with h1 h2 h3; cases h3

private theorem dull_writable : Renaming.dull.Writable := by
  rintro dot k ⟨w, F, h⟩
  cases h with
  | name hw hk => exact ⟨_, _, .name hw hk⟩
  | keyword hw hk ht =>
    by_cases hg : Terminal.kGoToLabel = ‹Terminal› ∨ Terminal.kDirective = ‹Terminal›
    · rcases keyword_plain hk with e | ⟨t, e, ht'⟩
      · rcases hg with rfl | rfl <;> exact absurd e (by decide)
      · have := kind_inj e
        subst this
        rcases hg with rfl | rfl <;> exact absurd ht' (by decide)
    · rw [Renaming.key_word]
      · exact ⟨_, _, .keyword hw hk ht⟩
      · simp at ht hg ⊢
        tauto
  | tru hw hk => exact ⟨_, _, .tru hw hk⟩
  | fls hw hk => exact ⟨_, _, .fls hw hk⟩
  | exec hw hk => exact ⟨_, _, .exec hw hk⟩
  | mark h =>
    rw [Renaming.key_word]
    · exact ⟨_, _, .mark h⟩
    · have := mark_plain h
      simp at this ⊢
      tauto
  | ne => exact ⟨_, _, .ne⟩
  | le => exact ⟨_, _, .le⟩
  | ge => exact ⟨_, _, .ge⟩
  | lt => exact ⟨_, _, .lt⟩
  | gt => exact ⟨_, _, .gt⟩
  | @number dot w v x h h' =>
    have hx : x.neg = false := number_sign (.number (dot := dot) h h')
    have : Renaming.dull.key (literal .kNumber (.num x)) = literal .kNumber (.num ⟨false, 0, 0⟩) := by
      show literal .kNumber (.num ⟨x.neg, 0, 0⟩) = _
      rw [hx]
    rw [this]
    exact ⟨_, _, .number (w := ['0']) (.int (s := ['0']) nofun (by simp [Digit])) (by decide +kernel)⟩
  | string h => exact ⟨_, _, .string .nil⟩
  | date h h' => exact ⟨_, _, .date (s := ['0']) (.digit (by simp [Digit]) .nil) (.zero nofun (by simp))⟩
  | directive h => exact ⟨_, _, .directive (w := "НаКлиенте".toList) (by decide +kernel)⟩
  | label h => exact ⟨_, _, .label (w := []) nofun⟩

private theorem dull_alike {k k' : Key} {dot dot' : Bool} (h : Alike k k') (hk : ∃ w F, Lexeme dot w k F) (hk' : ∃ w F, Lexeme dot' w k' F) :
    Renaming.dull.key k = Renaming.dull.key k' := by
  obtain ⟨w, F, hk⟩ := hk
  obtain ⟨w', F', hk'⟩ := hk'
  cases h with
  | same => rfl
  | label => rfl
  | directive n n' =>
    show named .kDirective (if n = [] then [] else _) = named .kDirective (if n' = [] then [] else _)
    rw [if_neg (directive_name hk), if_neg (directive_name hk')]
  | number x y =>
    show literal .kNumber (.num ⟨x.neg, 0, 0⟩) = literal .kNumber (.num ⟨y.neg, 0, 0⟩)
    rw [number_sign hk, number_sign hk']
  | string => rfl
  | date => rfl

private theorem dull_keys {dot dot' : Bool} {ks ks' : List Key} (h : List.Forall₂ Alike ks ks') (hk : KeysOk dot ks) (hk' : KeysOk dot' ks') :
    ks.map Renaming.dull.key = ks'.map Renaming.dull.key := by
  induction h generalizing dot dot' with
  | nil => rfl
  | cons h _ ih =>
    cases hk with
    | cons h1 h2 =>
      cases hk' with
      | cons h1' h2' => rw [List.map_cons, List.map_cons, dull_alike h h1 h1', ih h2 h2']

/-- There is a text with the dull tokens of both. -/
private theorem dull_text {code code' : List Char} {ks ks' : List Key} (hk : HasKeys code ks) (hk' : HasKeys code' ks')
    (h : List.Forall₂ Alike ks ks') : ∃ s, HasKeys s (ks.map Renaming.dull.key) ∧ HasKeys s (ks'.map Renaming.dull.key) := by
  obtain ⟨s, hs⟩ := written_gap (keysOk_rename dull_writable (hasKeys_ok hk))
  exact ⟨_, written_keys hs, dull_keys h (hasKeys_ok hk) (hasKeys_ok hk') ▸ written_keys hs⟩

/-- **C49.** A sequence of tokens is the sequence of tokens of some text exactly if each of the tokens can be written in its place. -/
theorem C49_texts (ks : List Key) : (∃ code, HasKeys code ks) ↔ AllWritable false ks := by
  have h1 : ∀ {dot ks}, KeysOk dot ks → AllWritable dot ks := by
    intro dot ks h
    induction h with
    | nil => exact .nil
    | cons h _ ih => exact .cons h ih
  have h2 : ∀ {dot ks}, AllWritable dot ks → KeysOk dot ks := by
    intro dot ks h
    induction h with
    | nil => exact .nil
    | cons h _ ih => exact .cons h ih
  constructor
  · rintro ⟨code, h⟩
    exact h1 (hasKeys_ok h)
  · intro h
    obtain ⟨s, hs⟩ := written_gap (h2 h)
    exact ⟨_, written_keys hs⟩

/-- **C80.** Texts whose tokens differ in constants, labels and directives only are both accepted or both rejected. -/
theorem C80_accepted (hL : ∀ c : Char, c.toNat ∈ whiteSpace → Letters.isL c = false) {code code' : List Char} {ks ks' : List Key}
    (hk : HasKeys code ks) (hk' : HasKeys code' ks') (h : List.Forall₂ Alike ks ks') : (∃ M, Accepts code M) ↔ ∃ M, Accepts code' M := by
  obtain ⟨s, h1, h2⟩ := dull_text hk hk' h
  exact (C55_accepted_iff hL dull_ok hk h1).trans (C55_accepted_iff hL dull_ok hk' h2).symm

/-- **C80.** … and their trees differ in constants, labels and directives only. -/
theorem C80_trees (hL : ∀ c : Char, c.toNat ∈ whiteSpace → Letters.isL c = false) {code code' : List Char} {ks ks' : List Key}
    (hk : HasKeys code ks) (hk' : HasKeys code' ks') (h : List.Forall₂ Alike ks ks') {M M' : Module} (ha : Accepts code M)
    (ha' : Accepts code' M') : AlikeTrees M M' := by
  obtain ⟨s, h1, h2⟩ := dull_text hk hk' h
  exact accepts_unique (C55_accepts hL dull_ok hk h1 ha) (C55_accepts hL dull_ok hk' h2 ha')

/-- **C81.** Labels are not looked at: texts whose tokens differ in the names of labels only are both accepted or both rejected, whichever
jumps go to which labels.  Missing: the claim itself, which is false (`C81_violated`). -/
theorem C81_labels_partial (hL : ∀ c : Char, c.toNat ∈ whiteSpace → Letters.isL c = false) {code code' : List Char} {ks ks' : List Key}
    (hk : HasKeys code ks) (hk' : HasKeys code' ks') (h : List.Forall₂ SameButLabel ks ks') :
    (∃ M, Accepts code M) ↔ ∃ M, Accepts code' M := by
  exact C80_accepted hL hk hk' (h.imp fun | _, _, .same _ => .same _ | _, _, .label _ _ => .label _ _)

end

/-! ## Examples -/

private def alikeOne : List Char := "&НаКлиенте Перем г; ~м: а = -1 + '20200101'; Перейти ~м; б = \"х\";".toList
private def alikeOther : List Char := "&НаСервере Перем г; ~н: а = -20.5 + '19991231235959'; Перейти ~к; б = \"\";".toList

private def keys (d m m' : Name) (x : F64) (t : Time) (s : List Char) : List Key :=
  [named .kDirective d, word .kVar, ident ['г'], word .semi, named .kGoToLabel m, word .colon, ident ['а'], word .kEQUAL, word .minus,
    literal .kNumber (.num x), word .plus, literal .kDate (.date t), word .semi, word .kGoTo, named .kGoToLabel m', word .semi,
    ident ['б'], word .kEQUAL, literal .kString (.str s), word .semi]

private theorem alikeOne_keys : @HasKeys stdLetters alikeOne (keys "&НаКлиенте".toList ['м'] ['м'] ⟨false, 4503599627370496, -52⟩ ⟨2020, 1, 1, 0, 0, 0⟩ ['х']) :=
  @keysOf_sound stdLetters 60 _ _ (by decide +kernel)
private theorem alikeOther_keys : @HasKeys stdLetters alikeOther (keys "&НаСервере".toList ['н'] ['к'] ⟨false, 5770237022568448, -48⟩ ⟨1999, 12, 31, 23, 59, 59⟩ []) :=
  @keysOf_sound stdLetters 60 _ _ (by decide +kernel)

private theorem keys_alike (d m m' x t s d1 m1 m1' x1 t1 s1) : List.Forall₂ Alike (keys d m m' x t s) (keys d1 m1 m1' x1 t1 s1) := by
  unfold keys
  repeat' first
    | exact .nil
    | refine .cons (.same _) ?_
    | refine .cons (.label _ _) ?_
    | refine .cons (.directive _ _) ?_
    | refine .cons (.number _ _) ?_
    | refine .cons (.string _ _) ?_
    | refine .cons (.date _ _) ?_

example : ∃ M, @Accepts stdLetters alikeOther M :=
  (@C80_accepted stdLetters std_white _ _ _ _ alikeOne_keys alikeOther_keys (keys_alike ..)).1 ⟨_, @accepts_modOf stdLetters _ (by decide +kernel)⟩
example := @C80_trees stdLetters std_white _ _ _ _ alikeOne_keys alikeOther_keys (keys_alike ..) _ _ (@accepts_modOf stdLetters _ (by decide +kernel))
  (@accepts_modOf stdLetters _ (by decide +kernel))

/-- After a dot `Если` is a name; elsewhere it is none. -/
example : ∃ code, @HasKeys stdLetters code [ident ['а'], word .dot, ident ['Е', 'с', 'л', 'и']] := by
  let := stdLetters
  exact (C49_texts _).2 (.cons ⟨_, _, .name (rus_word nofun (by decide)) (.inr (plain_word (by decide +kernel)))⟩
    (.cons ⟨_, _, .mark (c := '.') (by decide)⟩ (.cons ⟨_, _, .name (rus_word nofun (by decide)) (.inl (by decide))⟩ .nil)))
example : ¬ ∃ code, @HasKeys stdLetters code [ident ['Е', 'с', 'л', 'и']] := by
  let := stdLetters
  rw [C49_texts]
  intro h
  cases h with
  | cons h _ =>
    obtain ⟨w, F, h⟩ := h
    generalize hk : ident ['Е', 'с', 'л', 'и'] = k at h
    cases h with
    | name hw hd =>
      injection hk with _ h2
      subst h2
      rcases hd with hd | hd
      · cases hd
      · generalize hn : identNumber = n at hd
        cases hd with
        | keyword hm => exact absurd hn.symm ((show ∀ p ∈ keywordTable, p.2 ≠ identNumber by decide) _ hm)
        | ident ho => exact ho Terminal.kIf.kind (by decide +kernel)
    | keyword hw hkd ht => injection hk with h1 _; have := kind_inj h1; subst this; simp at ht
    | mark hm => injection hk with h1 _; have := kind_inj h1; subst this; exact absurd (mark_plain hm) (by simp)
    | _ => injection hk with h1; exact absurd h1 (by decide)

/-! ### C81 -/

example := @C81_labels_partial stdLetters std_white "~а: Перейти ~а".toList "~а: Перейти ~б".toList
  [named .kGoToLabel ['а'], word .colon, word .kGoTo, named .kGoToLabel ['а']] [named .kGoToLabel ['а'], word .colon, word .kGoTo, named .kGoToLabel ['б']]
  (@keysOf_sound stdLetters 10 _ _ (by decide +kernel)) (@keysOf_sound stdLetters 10 _ _ (by decide +kernel))
  (.cons (.same _) (.cons (.same _) (.cons (.same _) (.cons (.label _ _) .nil))))

/-- The text is accepted although a jump has no label or a label stands twice. -/
def BadJumps (code : List Char) : Prop := ∃ M, @Accepts stdLetters code M ∧ ¬ JumpsHaveLabels M

/-- Accepted texts: a jump without label, a label twice, and a jump to a label of another procedure. -/
theorem C81_violated : BadJumps "Перейти ~а".toList ∧ BadJumps "~а: ~а: б()".toList ∧
    BadJumps "Процедура П() ~а: б() КонецПроцедуры Процедура Р() Перейти ~а КонецПроцедуры".toList := by
  refine ⟨?_, ?_, ?_⟩
  · refine ⟨⟨[], [.stm (.goto ['а'])]⟩, @accepts_eq stdLetters _ _ (by decide +kernel) (by decide +kernel), fun h => ?_⟩
    exact absurd (h.2.2 ['а'] (by simp [jumpsL, jumps])) (by simp [labelsL, labels])
  · refine ⟨⟨[], [.stm (.label ['а']), .stm (.label ['а']), .stm (.method ['б'] [.nil] false)]⟩,
      @accepts_eq stdLetters _ _ (by decide +kernel) (by decide +kernel), fun h => ?_⟩
    have := h.2.1
    simp [labelsL, labels] at this
  · refine ⟨_, @accepts_modOf stdLetters _ (by decide +kernel), fun h => ?_⟩
    have := (h.1 ⟨some [], ['Р'], [], [.goto ['а']], [], false, false⟩ (by decide +kernel)).2 ['а'] (by simp [jumpsL, jumps])
    simp [labelsL, labels] at this

/-- And one in which all jumps have their labels. -/
example : JumpsHaveLabels ⟨[], [.func ⟨none, ['П'], [], [.label ['а'], .loop .nil .nil .nil (.bool true) [.goto ['а']]], [], false, false⟩]⟩ := by
  simp [JumpsHaveLabels, JumpsOk, jumpsL, jumps, labelsL, labels]

end Verif
