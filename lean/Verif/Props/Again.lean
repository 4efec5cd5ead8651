import Verif.Proofs.Again
/-!
# Calling `Parse` again on the same AstNode: C44
-/
namespace Verif
open Spec Lexer LR

variable [Letters]

theorem spells_state {code : List Char} {P : Program} {M : Module} {a : Ast} (hb : NotBlank code) (hs : Spells code P) (hc : P.clean)
    (ha : Accepts code M) (h : parse (newAST code) = .ret a) :
    M = P.tree ∧ ProgOk P ∧ a.err = none ∧ a.code = code ∧ view a = St.at P.tree P.whiles 0 false := by
  have hA := accepted hb hs ha
  have hok : ProgOk P := ⟨hc, hA.breaks, hA.throws, hA.returns, hA.colons, hA.distinct, hA.ordered⟩
  obtain ⟨⟨l, ht, hl⟩, hg⟩ := hs
  obtain ⟨a', h1, h2, h3, h4⟩ := parse_adds (a := newAST code) (M := ⟨[], []⟩) (n := 0) rfl rfl ((notBlank_iff code).1 hb) ht hl hg hok
    ⟨hok.distinct.1, fun _ => rfl, fun _ _ => nofun, hok.breaks⟩
  rw [h] at h1
  injection h1 with h1
  subst h1
  exact ⟨Program.exact hc hA.shows, hok, h2, h3, by rw [h4, Nat.zero_add]; rfl⟩

omit [Letters] in
theorem vars_of_globals {P : Program} : P.globals = [] ↔ ¬∃ v, Part.vars v ∈ P.parts := by
  unfold Program.globals
  rw [List.flatMap_eq_nil_iff]
  constructor
  · rintro h ⟨v, hv⟩
    have := h _ hv
    simp [Part.globals, VarsD.tree, Names.list] at this
  · intro h p hp
    cases p with
    | vars v => exact absurd ⟨v, hp⟩ h
    | func f => rfl

omit [Letters] in
theorem funcs_of_body {P : Program} : (∃ f, Part.func f ∈ P.parts) ↔ ∃ d, Item.func d ∈ P.tree.body := by
  constructor
  · rintro ⟨f, hf⟩
    refine ⟨f.tree, List.mem_append_left _ (List.mem_map.2 ⟨f, List.mem_flatMap.2 ⟨_, hf, ?_⟩, rfl⟩)⟩
    simp [Part.funcs]
  · rintro ⟨d, hd⟩
    rcases List.mem_append.1 hd with hd | hd
    · obtain ⟨f, hf, -⟩ := List.mem_map.1 hd
      obtain ⟨p, hp, hf⟩ := List.mem_flatMap.1 hf
      cases p with
      | vars v => cases hf
      | func g => exact ⟨g, hp⟩
    · obtain ⟨s, -, h⟩ := List.mem_map.1 hd
      cases h

/-- What a second `Parse` does with the text of a program: it succeeds exactly if the module has no module variables and does not have
both procedures and module code; and if it succeeds, the tree has every procedure and statement twice.  Missing: that the tree is the
same again, which is false (`C44_violated`, `C44_same_partial`); programs with a block that begins with a separator. -/
theorem C44_again_partial {code : List Char} {P : Program} {M : Module} {a : Ast} (hb : NotBlank code) (hs : Spells code P) (hc : P.clean)
    (ha : Accepts code M) (h : parse (newAST code) = .ret a) :
    ((∃ a', parse a = .ret a' ∧ a'.err = none) ↔
      M.globals = [] ∧ ((∃ d, .func d ∈ M.body) → ∀ s, M.body.getLast? ≠ some (.stm s))) ∧
    ∀ a', parse a = .ret a' → a'.err = none → a'.mod = ⟨[], M.body ++ M.body⟩ := by
  obtain ⟨rfl, hok, he, hcode, hv⟩ := spells_state hb hs hc ha h
  have hb' : a.code.all isUnicodeSpace = false := by rw [hcode]; exact (notBlank_iff code).1 hb
  have key : ∀ a', parse a = .ret a' → a'.err = none → P.tree.globals = [] ∧
      ((∃ d, .func d ∈ P.tree.body) → ∀ s, P.tree.body.getLast? ≠ some (.stm s)) ∧ a'.mod = ⟨[], P.tree.body ++ P.tree.body⟩ := by
    intro a' h1 h2
    obtain ⟨l, P', ds, ss, ht, hl, hg, hds, hss, hm, q1, q2, q3⟩ := parse_again hv hb' h1 h2
    rw [hcode] at ht
    obtain ⟨⟨l0, ht0, hl0⟩, hg0⟩ := hs
    have e := program_unique ht0 ht hl0 hl hg0 hg
    subst e
    have hgl : P.tree.globals = [] := by
      by_contra hne
      obtain ⟨g, hgm⟩ := List.exists_mem_of_ne_nil _ hne
      have hnd := q2 hok.distinct.1
      rw [List.map_append, List.nodup_append] at hnd
      have hm' := List.mem_map_of_mem (f := GVar.name) hgm
      exact hnd.2.2 _ hm' _ hm' rfl
    have hgl' : P.globals = [] := hgl
    refine ⟨hgl, fun hd => q3 (funcs_of_body.2 hd), ?_⟩
    have hds' : ds = P.funcs.map FuncD.tree := by
      have : ∀ {fs : List FuncD}, (∀ f ∈ fs, f.clean) → ∀ {ds}, List.Forall₂ FuncD.shows fs ds → ds = fs.map FuncD.tree := by
        intro fs hf ds h
        induction h with
        | nil => rfl
        | cons h1 _ ih => rw [List.map_cons, FuncD.exact (hf _ (by simp)) h1, ih fun f hf' => hf f (by simp [hf'])]
      exact this hok.clean.1 hds
    have hss' := Block.exact _ hok.clean.2 hss
    rw [hm, hgl, hgl', hds', hss']
    simp [Program.tree]
  refine ⟨⟨fun ⟨a', h1, h2⟩ => ⟨(key a' h1 h2).1, (key a' h1 h2).2.1⟩, ?_⟩, fun a' h1 h2 => (key a' h1 h2).2.2⟩
  rintro ⟨g1, g2⟩
  obtain ⟨⟨l, ht, hl⟩, hg⟩ := hs
  have g1' : P.globals = [] := g1
  obtain ⟨a', k1, k2, -⟩ := parse_adds hv he hb' (by rw [hcode]; exact ht) hl hg hok
    ⟨by rw [g1, g1']; exact List.nodup_nil, fun hv => absurd hv (vars_of_globals.1 g1'), fun hf => g2 (funcs_of_body.1 hf),
      blocks_breaks_mono _ (Nat.zero_le _) hok.breaks⟩
  exact ⟨a', k1, k2⟩

/-- A second `Parse` gives the same tree exactly if the module is empty. -/
theorem C44_same_partial {code : List Char} {P : Program} {M : Module} {a : Ast} (hb : NotBlank code) (hs : Spells code P) (hc : P.clean)
    (ha : Accepts code M) (h : parse (newAST code) = .ret a) :
    (∃ a', parse a = .ret a' ∧ a'.err = none ∧ a'.mod = M) ↔ M = ⟨[], []⟩ := by
  obtain ⟨h1, h2⟩ := C44_again_partial hb hs hc ha h
  constructor
  · rintro ⟨a', g1, g2, g3⟩
    have hm := h2 a' g1 g2
    have hg := (h1.1 ⟨a', g1, g2⟩).1
    obtain ⟨G, B⟩ := M
    rw [g3] at hm
    injection hm with m1 m2
    have : B = [] := by simpa using m2
    rw [m1, this]
  · rintro rfl
    obtain ⟨a', g1, g2⟩ := h1.2 ⟨rfl, nofun⟩
    exact ⟨a', g1, g2, h2 a' g1 g2⟩

/-- A text of white space: nothing changes. -/
theorem C44_blank {code : List Char} (hb : ¬NotBlank code) : parse (newAST code) = .ret (newAST code) := by
  have : code.all isUnicodeSpace = true := by
    rw [notBlank_iff] at hb
    simpa using hb
  show (if code.all isUnicodeSpace then _ else _) = _
  rw [if_pos this]

section
omit [Letters]

def twice (code : List Char) : Option (Option Module × Option Module) :=
  match @parse stdLetters (newAST code) with
  | .ret a => match @parse stdLetters a with
    | .ret a' => some (if a.err.isNone then some a.mod else none, if a'.err.isNone then some a'.mod else none)
    | _ => none
  | _ => none

theorem twice_of {code : List Char} {M : Module} {r : Option Module} (h : twice code = some (some M, r)) :
    ∃ a a', @parse stdLetters (newAST code) = .ret a ∧ a.err = none ∧ a.mod = M ∧ @parse stdLetters a = .ret a' ∧
      (r = none → a'.err ≠ none) ∧ ∀ M', r = some M' → a'.err = none ∧ a'.mod = M' := by
  unfold twice at h
  split at h
  · rename_i a ha
    split at h
    · rename_i a' ha'
      simp only [Option.some.injEq, Prod.mk.injEq] at h
      obtain ⟨h1, rfl⟩ := h
      have e1 : a.err = none := by
        cases e : a.err with
        | none => rfl
        | some x => rw [e] at h1; simp at h1
      rw [e1] at h1
      simp only [Option.isNone_none, if_true, Option.some.injEq] at h1
      refine ⟨a, a', ha, e1, h1, ha', ?_⟩
      cases a'.err <;> simp
    · cases h
  · cases h

/-- The property does not hold: after a second `Parse` of `а = 1` the tree has the statement twice, and a second `Parse` of
`Перем а; б = 1` fails. -/
theorem C44_violated :
    (∃ code M M' a a', @parse stdLetters (newAST code) = .ret a ∧ a.err = none ∧ a.mod = M ∧ @parse stdLetters a = .ret a' ∧
      a'.err = none ∧ a'.mod = M' ∧ M ≠ M') ∧
    ∃ code a a', @parse stdLetters (newAST code) = .ret a ∧ a.err = none ∧ @parse stdLetters a = .ret a' ∧ a'.err ≠ none := by
  constructor
  · obtain ⟨a, a', h1, h2, h3, h4, -, h5⟩ := @twice_of "а = 1".toList ⟨[], [.stm (.assign (.var ['а'] false false) [.num ⟨false, 4503599627370496, -52⟩])]⟩
      (some ⟨[], [.stm (.assign (.var ['а'] false false) [.num ⟨false, 4503599627370496, -52⟩]),
        .stm (.assign (.var ['а'] false false) [.num ⟨false, 4503599627370496, -52⟩])]⟩) (by decide +kernel)
    exact ⟨_, _, _, a, a', h1, h2, h3, h4, (h5 _ rfl).1, (h5 _ rfl).2, by decide +kernel⟩
  · obtain ⟨a, a', h1, h2, -, h4, h5, -⟩ := @twice_of "Перем а; б = 1".toList
      ⟨[⟨[], ['а'], false⟩], [.stm (.assign (.var ['б'] false false) [.num ⟨false, 4503599627370496, -52⟩])]⟩ none (by decide +kernel)
    exact ⟨_, a, a', h1, h2, h4, h5 rfl⟩

/-- A second `Parse` of `а = б` succeeds, and the statement is there twice. -/
example : ∃ a a', @parse stdLetters (newAST "а = б".toList) = .ret a ∧ @parse stdLetters a = .ret a' ∧ a'.err = none ∧
    a'.mod.body.length = 2 := by
  have hb : NotBlank "а = б".toList := (notBlank_iff _).2 (by decide +kernel)
  have hs : @Spells stdLetters "а = б".toList (single (.assign (.one (.name ['а'])) (.path (.one (.name ['б']))))) := by
    refine ⟨@keysOf_sound stdLetters 100 _ _ (by decide +kernel), ?_⟩
    simp [single, Program.grouped, Program.funcs, Block.grouped, Body.grouped, Stmt.grouped, Path.grouped, Ident.grouped, Expr.grouped]
  have hok := assign_ok (.one (.name ['а'])) (.path (.one (.name ['б'])))
  have ha := @accepts_of stdLetters _ _ hb hs hok
  obtain ⟨a, h1, -⟩ := id ha
  obtain ⟨h2, h3⟩ := @C44_again_partial stdLetters _ _ _ a hb hs hok.clean ha h1
  obtain ⟨a', h4, h5⟩ := h2.2 (by simp [Program.tree, single, Program.globals, Program.funcs])
  refine ⟨a, a', h1, h4, h5, ?_⟩
  rw [h3 a' h4 h5]
  simp [Program.tree, single, Program.funcs, Block.tree, Body.tree]

end

end Verif
