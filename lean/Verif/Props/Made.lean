import Verif.Props.Signs
import Verif.Props.RenameText
/-!
# Printing trees that were not parsed: C79

`WellMade` is defined in `Verif/Spec/Made.lean`, the other conditions on trees in `Verif/Spec/Reprint.lean` and `Verif/Spec/Turn.lean`.
-/
namespace Verif
open Spec Lexer LR

section
variable [Letters]

/-- The conditions on a well-made module. -/
private theorem fine {M : Module} (hm : WellMade M) (hp : Printable M) (hst : Steady M) (hl : BreaksInLoops M) {cf : PrintConf}
    (ht : TryOk cf M) {gs : List GVar} (hg : gs.Perm M.globals) (hne : M.body ≠ []) {fs l}
    (he : M.body = List.map Item.func fs ++ List.map Item.stm l) : Fine cf gs fs l := by
  have mf : ∀ {f}, f ∈ fs → Item.func f ∈ M.body :=
    fun hf => he ▸ List.mem_append_left _ (List.mem_map.2 ⟨_, hf, rfl⟩)
  have ms : ∀ {s}, s ∈ l → Item.stm s ∈ M.body :=
    fun hs => he ▸ List.mem_append_right _ (List.mem_map.2 ⟨_, hs, rfl⟩)
  refine ⟨⟨fun v hv => hm.vars v (hg.subset hv), fun f hf => (hm.funcs f (mf hf)).1, fun s hs => (hm.stms s (ms hs)).1⟩,
    ⟨(hg.map _).nodup_iff.2 hm.once, ⟨fun f hf => (hm.funcs f (mf hf)).2.1, ?_⟩, fun f hf => (hm.funcs f (mf hf)).2.2, ?_⟩,
    fun f hf => (hp _ (mf hf)).1, fun f hf => (hp _ (mf hf)).2, fun s hs => hp _ (ms hs), fun f hf => hst _ (mf hf),
    fun s hs => hst _ (ms hs), fun f hf => hl _ (mf hf), inLoopsL_of fun s hs => hl _ (ms hs),
    fun f hf => ht _ (mf hf), tryOkL_of fun s hs => ht _ (ms hs), he ▸ hne⟩
  · have : ∀ s ∈ l, th 0 s := fun s hs => (hm.stms s (ms hs)).2.1
    clear he mf ms
    induction l with
    | nil => trivial
    | cons a l ih => exact ⟨this a (by simp), ih fun s hs => this s (by simp [hs])⟩
  · have : ∀ s ∈ l, rt false s := fun s hs => (hm.stms s (ms hs)).2.2
    clear he mf ms
    induction l with
    | nil => trivial
    | cons a l ih => exact ⟨this a (by simp), ih fun s hs => this s (by simp [hs])⟩

/-- What a well-made module prints is accepted, and what it gives is printed, with all options, as the module with its branches
`ИначеЕсли` in the opposite order.  The module need not come from a text.  Missing: what is missing from `C76_turned_partial`. -/
theorem C79_reads_partial {M : Module} (hm : WellMade M) (hp : Printable M) (hst : Steady M) (hl : BreaksInLoops M) {cf : PrintConf}
    (ht : TryOk cf M) {s : List Char} (hs : Prints cf M s) :
    ∃ M', Accepts s M' ∧ ∀ cf' s', Prints cf' M' s' ↔ Prints cf' (turnModule M) s' := by
  obtain ⟨gs, hg, rfl⟩ := hs
  by_cases hne : M.body = []
  · refine ⟨⟨[], []⟩, ?_, ?_⟩
    · unfold printModule
      rw [if_pos hne]
      exact C17_blank [] (by simp)
    · have hn : (turnModule M).body = [] := by simp [turnModule, hne]
      intro cf' s'
      constructor
      · rintro ⟨gs', _, rfl⟩
        exact ⟨gs, hg, by unfold printModule; rw [if_pos hn, if_pos rfl]⟩
      · rintro ⟨gs', _, rfl⟩
        exact ⟨[], .refl _, by unfold printModule; rw [if_pos hn, if_pos rfl]⟩
  obtain ⟨fs, l, he⟩ := hm.order
  obtain ⟨M', h1, h2, h3, -⟩ := (fine hm hp hst hl ht hg hne he).reread
  have e : printModule cf gs (modOfParts gs fs l) = printModule cf gs M := by
    unfold printModule
    rw [he]
  have e' : ∀ cf gs', printModule cf gs' (modOfParts gs (fs.map turnFunc) (turnL l)) = printModule cf gs' (turnModule M) := by
    intro cf gs'
    unfold printModule turnModule
    rw [he, turn_parts]
  refine ⟨M', e ▸ h1, fun cf' s' => ?_⟩
  constructor
  · rintro ⟨gs', hp', rfl⟩
    rw [h2] at hp'
    exact ⟨gs', hp'.trans hg, by rw [h3 _ _ hp', e']⟩
  · rintro ⟨gs', hp', rfl⟩
    have hp'' : gs'.Perm gs := hp'.trans hg.symm
    exact ⟨gs', by rw [h2]; exact hp'', by rw [h3 _ _ hp'', e']⟩

/-- What is read has the variables, declarations and statements of the well-made module, up to the order of `ИначеЕсли`, parentheses
that do not matter, digits after the decimal point and local variables, exactly if all signs are printed.  Missing: what is missing
from `C79_reads_partial`, and modules that declare variables and nothing else. -/
theorem C79_same_partial {M : Module} (hm : WellMade M) (hp : Printable M) (hst : Steady M) (hl : BreaksInLoops M) (hne : M.body ≠ [])
    {cf : PrintConf} (ht : TryOk cf M) {s : List Char} (hs : Prints cf M s) :
    ∃ M', Accepts s M' ∧ M'.globals.Perm M.globals ∧ (M'.body.map bareItem = (turnModule M).body.map bareItem ↔ ShowsSigns M) := by
  obtain ⟨gs, hg, rfl⟩ := hs
  obtain ⟨fs, l, he⟩ := hm.order
  have h := fine hm hp hst hl ht hg hne he
  obtain ⟨ds, b, hr⟩ := h.sane.re (g := true) (.refl gs) (fun f hf => ⟨h.params f hf, h.plainF f hf⟩) h.plain fun _ => ⟨h.steadyF, h.steady⟩
  have hw : Written false (printModule cf gs M) (progOf gs ds b).toks := by
    have := hr.sp (cf := cf) h.tryF h.tryL [] [] trivial (.done (.layout .nil))
    unfold printModule
    rw [if_neg hne, he]
    simpa using this
  obtain ⟨t, ht1, ht2⟩ := hr.mark h.ne
  refine ⟨(progOf gs ds b).tree, accepts_of (written_mark hw ht1 ht2) ⟨written_keys hw, hr.grouped⟩
    (hr.ok' h.rules (.inr ⟨h.loopsF, h.loops⟩)), (List.Perm.of_eq (globals_progOf gs ds b)).trans hg, ?_⟩
  have e : (turnModule M).body = (fs.map turnFunc).map Item.func ++ (turnL l).map Item.stm := by
    unfold turnModule
    rw [he, turn_parts]
  rw [e]
  constructor
  · intro h3 i hi
    obtain ⟨g1, g2⟩ := hr.shows h3
    rw [he] at hi
    rcases List.mem_append.1 hi with hi | hi
    · obtain ⟨f, hf, rfl⟩ := List.mem_map.1 hi
      exact g1 f hf
    · obtain ⟨x, hx, rfl⟩ := List.mem_map.1 hi
      exact g2 x hx
  · intro hsg
    exact hr.bare (fun f hf => hsg (.func f) (he ▸ List.mem_append_left _ (List.mem_map.2 ⟨f, hf, rfl⟩)))
      fun s hs => hsg (.stm s) (he ▸ List.mem_append_right _ (List.mem_map.2 ⟨s, hs, rfl⟩))

/-- All parsed modules are well made. -/
theorem C79_parsed {code : List Char} {P : Program} {M : Module} (hs : Spells code P) (hc : P.clean) (ha : Accepts code M) :
    WellMade M := by
  by_cases hb : NotBlank code
  · obtain ⟨rfl, hok, hsane⟩ := accepted_parts hb hs hc ha
    have hT := treeOk (.refl _) hok
    have e := tree_body P
    refine ⟨hsane.vars, hT.names, ⟨_, _, e⟩, fun f hf => ?_, fun s hs => ?_⟩
    · rw [e] at hf
      rcases List.mem_append.1 hf with hf | hf
      · obtain ⟨x, hx, hxe⟩ := List.mem_map.1 hf
        injection hxe with hxe
        subst hxe
        exact ⟨hsane.funcs _ hx, hT.throws.1 _ hx, hT.returns.1 _ hx⟩
      · obtain ⟨x, hx, hxe⟩ := List.mem_map.1 hf
        cases hxe
    · rw [e] at hs
      rcases List.mem_append.1 hs with hs | hs
      · obtain ⟨x, hx, hxe⟩ := List.mem_map.1 hs
        cases hxe
      · obtain ⟨x, hx, hxe⟩ := List.mem_map.1 hs
        injection hxe with hxe
        subst hxe
        refine ⟨hsane.body _ hx, ?_, ?_⟩
        · have := hT.throws.2
          clear hs e hT hsane
          revert hx this
          generalize P.body.tree = l
          intro hx this
          induction l with
          | nil => cases hx
          | cons a l ih =>
            rcases List.mem_cons.1 hx with rfl | hx
            · exact this.1
            · exact ih hx this.2
        · have := hT.returns.2
          clear hs e hT hsane
          revert hx this
          generalize P.body.tree = l
          intro hx this
          induction l with
          | nil => cases hx
          | cons a l ih =>
            rcases List.mem_cons.1 hx with rfl | hx
            · exact this.1
            · exact ih hx this.2
  · rw [accepts_blank hb ha]
    exact ⟨nofun, List.nodup_nil, ⟨[], [], rfl⟩, nofun, nofun⟩

end

/-! ## Examples -/

/-- A made module: one variable, and a function with two branches `ИначеЕсли` and a sum in parentheses. -/
def madeModule : Module where
  globals := [⟨[], ['г'], true⟩]
  body := [.func ⟨none, ['Ф'], [], [
    .ifS (.var ['а'] false false) [.ret (.num ⟨false, 1, 0⟩)]
      [.ifS (.var ['б'] false false) [.ret (.str ['х'])] [] [], .ifS (.var ['в'] true false) [.ret .undef] [] []] [],
    .tryS [.assign (.chain (.var ['п'] false false) (.var ['а'] false false) false false)
        [.bin .mul (.exprs [.bin .plus (.var ['а'] false false) (.var ['б'] false false) false false] false) (.var ['в'] false false) false false]]
      [.throw .nil]],
    [⟨.nil, ['а'], true⟩, ⟨.bool true, ['б'], false⟩], true, true⟩,
    .stm (.method ['Ф'] [.nil] false)]

private theorem name (c : Char) (h : c ∈ ['Ф', 'а', 'б', 'в', 'г', 'п']) (dot : Bool) : @NameOk stdLetters dot [c] := by
  simp only [List.mem_cons, List.not_mem_nil, or_false] at h
  rcases h with rfl | rfl | rfl | rfl | rfl | rfl <;>
    exact ⟨@rus_word stdLetters _ nofun (by decide), .inr (plain_word (by decide +kernel))⟩

theorem made_well : @WellMade stdLetters madeModule := by
  let := stdLetters
  have n := name
  have v : ∀ c, c ∈ ['Ф', 'а', 'б', 'в', 'г', 'п'] → ∀ u m, SaneE (.var [c] u m) := fun c h _ _ => .var (n c h false)
  refine ⟨?_, by decide, ⟨[_], [_], rfl⟩, ?_, ?_⟩
  · intro x hx
    simp only [madeModule, List.mem_singleton] at hx
    subst hx
    exact ⟨n _ (by simp) _, .inl rfl⟩
  · intro f hf
    simp only [madeModule, List.mem_cons, List.not_mem_nil, or_false, reduceCtorEq, Item.func.injEq] at hf
    subst hf
    refine ⟨⟨n _ (by simp) _, .inl rfl, ?_, ?_⟩, by simp [th, thL], by simp [rt, rtL]⟩
    · intro p hp
      simp only [List.mem_cons, List.not_mem_nil, or_false] at hp
      rcases hp with rfl | rfl
      · exact ⟨n _ (by simp) _, .none⟩
      · exact ⟨n _ (by simp) _, .some .bool⟩
    · have one : ∀ {Q : Stm → Prop} {s}, Q s → ∀ x ∈ [s], Q x := by
        intro Q s h x hx
        rw [List.mem_singleton.1 hx]
        exact h
      intro x hx
      simp only [List.mem_cons, List.not_mem_nil, or_false] at hx
      rcases hx with rfl | rfl
      · refine .ifS (v _ (by simp) _ _) (one (.ret (.some (.num ⟨by decide, by decide, by decide⟩)))) ?_ nofun
        intro y hy
        simp only [List.mem_cons, List.not_mem_nil, or_false] at hy
        rcases hy with rfl | rfl
        · exact .mk (v _ (by simp) _ _) (one (.ret (.some (.str (.plain (by decide) (by decide) .nil)))))
        · exact .mk (v _ (by simp) _ _) (one (.ret (.some .undef)))
      · exact .tryS (one (.assign (.dot (.one (.name (n _ (by simp) _))) (.name (n _ (by simp) _)))
          (.bin (.exprs (one (.some (.bin (v _ (by simp) _ _) (v _ (by simp) _ _))))) (v _ (by simp) _ _)))) (one (.throw .none))
  · intro s hs
    simp only [madeModule, List.mem_cons, List.not_mem_nil, or_false, reduceCtorEq, false_or, Item.stm.injEq] at hs
    subst hs
    refine ⟨.expr (.call (.call (n _ (by simp) _) ?_)), by simp [th], by simp [rt]⟩
    intro x hx
    rw [List.mem_singleton.1 hx]
    exact .none

theorem made_prints : Printable madeModule ∧ Steady madeModule ∧ BreaksInLoops madeModule ∧ ShowsSigns madeModule := by
  simp [Printable, Steady, BreaksInLoops, ShowsSigns, madeModule, IsLit, plainS, plainB, plainE, plainEs, steadyS, steadyB, stableE, stableL, inLoops, inLoopsL,
    showsS, showsB, showsE, showsL, startsNot]

example (m : Nat) := @C79_same_partial stdLetters _ made_well made_prints.1 made_prints.2.1 made_prints.2.2.1 nofun ⟨m, false⟩
  (by simp [TryOk, madeModule, tryOk, tryOkL]) _ ⟨_, .refl _, rfl⟩
example (m : Nat) := @C79_reads_partial stdLetters _ made_well made_prints.1 made_prints.2.1 made_prints.2.2.1 ⟨m, false⟩
  (by simp [TryOk, madeModule, tryOk, tryOkL]) _ ⟨_, .refl _, rfl⟩
example := @C79_parsed stdLetters _ _ _ branch_spells branch_clean branch_accepted

/-- `Print` writes strings and names as they are.  A string with quotes becomes code, here a call, and a name that is a keyword is not
read back. -/
theorem C79_violated :
    (∃ M s M', M.body = [Item.stm (.assign (.var ['а'] false false) [.str "\" + Удалить() + \"".toList])] ∧
      Printable M ∧ Steady M ∧ BreaksInLoops M ∧ ShowsSigns M ∧ TryOk ⟨4, false⟩ M ∧ Prints ⟨4, false⟩ M s ∧ @Accepts stdLetters s M' ∧
      M'.body = [Item.stm (.assign (.var ['а'] false false)
        [.bin .plus (.bin .plus (.str []) (.method "Удалить".toList [.nil] false) false false) (.str []) false false])]) ∧
    ∃ M s, M.body = [Item.stm (.method "Если".toList [.nil] false)] ∧
      Printable M ∧ Steady M ∧ BreaksInLoops M ∧ ShowsSigns M ∧ TryOk ⟨4, false⟩ M ∧ Prints ⟨4, false⟩ M s ∧ ∀ M', ¬ @Accepts stdLetters s M' := by
  constructor
  · refine ⟨⟨[], _⟩, _, _, rfl, ?_, ?_, ?_, ?_, ?_, ⟨[], .refl _, rfl⟩, @accepts_modOf stdLetters _ (by decide +kernel), ?_⟩
    · simp [Printable, plainS, plainE, plainEs]
    · simp [Steady, steadyS, stableE, stableL]
    · simp [BreaksInLoops, inLoops]
    · simp [ShowsSigns, showsS, showsE, showsL]
    · simp [TryOk, tryOk]
    · decide +kernel
  · refine ⟨⟨[], _⟩, _, rfl, ?_, ?_, ?_, ?_, ?_, ⟨[], .refl _, rfl⟩, @rejects_eq stdLetters _ (by decide +kernel)⟩
    · simp [Printable, plainS, plainE, plainEs]
    · simp [Steady, steadyS, stableE, stableL]
    · simp [BreaksInLoops, inLoops]
    · simp [ShowsSigns, showsS, showsE, showsL]
    · simp [TryOk, tryOk]

end Verif
