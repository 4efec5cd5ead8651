import Verif.Proofs.Kept
import Verif.Proofs.LexNewline
import Verif.Proofs.Join
import Verif.Props.Join
/-!
# What comes later does not change the declarations in front: C70
-/
namespace Verif
open Spec Lexer LR

namespace Spec
/-- The procedures and functions of a module, in order. -/
def procedures (M : Module) : List FuncDecl := M.body.filterMap fun i => match i with | .func f => some f | .stm _ => none

/-- `M` has nothing but declarations. -/
def OnlyDeclarations (M : Module) : Prop := ∀ i ∈ M.body, ∃ f, i = Item.func f

/-- The text `rest` does not continue the last of the tokens `l`: if that is a string or a date, then the first character of `rest`
that is not blank is no quotation mark. -/
def NotContinued (l : List (Nat × Tok)) (rest : List Char) : Prop :=
  ∀ x, l.getLast? = some x → x.1 = tString ∨ x.1 = tDate → NoQuoteNext rest

/-- The declarations of `M` are the first declarations of `N`. -/
structure Kept (M N : Module) : Prop where
  globals : M.globals <+: N.globals
  procedures : procedures M <+: procedures N
  /-- a module of declarations only stays as it is, in front of everything else -/
  only : OnlyDeclarations M → M.body <+: N.body
end Spec

theorem kept_of {a b : Ast} (h : Keeps a b) : Kept a.mod b.mod := by
  obtain ⟨hg, B, is, h1, h2, h3⟩ := h
  refine ⟨hg, ?_, fun ho => ?_⟩
  · unfold procedures
    rw [h1, List.filterMap_append]
    have : is.filterMap (fun i => match i with | .func f => some f | .stm _ => none) = ([] : List FuncDecl) := by
      rw [List.filterMap_eq_nil_iff]
      intro i hi
      obtain ⟨s, rfl⟩ := h2 i hi
      rfl
    rw [this, List.append_nil]
    exact h3.filterMap _
  · cases is with
    | nil => rw [h1, List.append_nil]; exact h3
    | cons i is =>
      obtain ⟨s, rfl⟩ := h2 i (by simp)
      obtain ⟨f, hf⟩ := ho (.stm s) (by rw [h1]; simp)
      cases hf

section
variable [Letters]

omit [Letters] in
theorem kept_nil (code : List Char) (N : Module) : Kept (newAST code).mod N :=
  ⟨List.nil_prefix, List.nil_prefix, fun _ => List.nil_prefix⟩

theorem parse_blank {code : List Char} (hc : ¬ NotBlank code) {a : Ast} (h : parse (newAST code) = .ret a) : a = newAST code := by
  have hc : (newAST code).code.all isUnicodeSpace = true := by
    rw [notBlank_iff] at hc
    show code.all isUnicodeSpace = true
    simpa using hc
  unfold parse at h
  rw [if_pos hc] at h
  injection h with h
  exact h.symm

/-- If a text begins with tokens of the same numbers and literals as those of `code`, the declarations read from `code` are the first
declarations read from it: whatever comes later in the text, and whether or not there is an error. -/
theorem C70_tokens {code code' : List Char} {l l' : List (Nat × Tok)} (ht : TokensOf code l) (ht' : Spec.Begins code' l')
    (hk : l.map (fun x => (x.1, x.2.literal)) = l'.map fun x => (x.1, x.2.literal)) (hb : NotBlank code')
    {a b : Ast} (h : parse (newAST code) = .ret a) (h' : parse (newAST code') = .ret b) : Kept a.mod b.mod := by
  by_cases hc : NotBlank code
  · have hn : ∀ {s : List Char}, NotBlank s → s ≠ [] := by
      rintro s ⟨c, hc, _⟩ rfl; cases hc
    have run_of : ∀ {s : List Char} {x : Ast}, NotBlank s → parse (newAST s) = .ret x →
        ∃ k, run (fuel s.length) (initCfg (newAST s)) = .ok (some (k, x)) := by
      intro s x hs hx
      unfold parse at hx
      rw [if_neg (by rw [show (newAST s).code = s from rfl, (notBlank_iff s).1 hs]; decide)] at hx
      split at hx
      · cases hx
      · cases hx
      · rename_i k x' e
        injection hx with hx
        subst hx
        exact ⟨k, e⟩
    obtain ⟨k, r⟩ := run_of hc h
    obtain ⟨k', r'⟩ := run_of hb h'
    have hA : Ahead (initCfg (newAST code)) (initCfg (newAST code')) :=
      ⟨rfl, hn hc, hn hb, ⟨l, l', ht, ht', hk⟩, ⟨_, _, .base _⟩, fun t e => by cases e⟩
    exact kept_of (hA.run _ _ r r')
  · rw [parse_blank hc h]
    exact kept_nil _ _

/-- Text behind a line feed behind `code` does not change the declarations read from `code`: they are the first declarations of the
longer text, whatever that text is, and whether or not there is an error in it. -/
theorem C70_kept {code : List Char} {l : List (Nat × Tok)} (ht : TokensOf code l) (rest : List Char) (hr : NotContinued l rest)
    {a b : Ast} (h : parse (newAST code) = .ret a) (h' : parse (newAST (code ++ '\n' :: rest)) = .ret b) : Kept a.mod b.mod := by
  by_cases hb : NotBlank (code ++ '\n' :: rest)
  · obtain ⟨l', h1, h2⟩ := first_newline (q := rest) ht hr
    exact C70_tokens ht h1 h2 hb h h'
  · have hc : ¬ NotBlank code := fun ⟨c, h1, h2⟩ => hb ⟨c, by simp [h1], h2⟩
    rw [parse_blank hc h]
    exact kept_nil _ _

/-- The same for a text that is accepted. -/
theorem C70_accepted {code : List Char} {M : Module} (hc : Accepts code M) {rest : List Char} (hr : NoQuoteNext rest)
    {b : Ast} (h' : parse (newAST (code ++ '\n' :: rest)) = .ret b) : Kept M b.mod := by
  obtain ⟨a, h1, h2, rfl⟩ := hc
  by_cases hb : NotBlank code
  · obtain ⟨l, _, ht, _⟩ := parse_program ((notBlank_iff code).1 hb) h1 h2
    exact C70_kept ht rest (fun _ _ _ => hr) h1 h'
  · rw [parse_blank hb h1]
    exact kept_nil _ _
end

/-- A text with an error. -/
def wrongTail : List Char := "Процедура В() ; КонецПроцедуры Функция Г( а б".toList

/-- The hypotheses are met by `declText` of `Props/Join.lean`, which declares a variable and a procedure, with `wrongTail` behind it.
The error is reported, and the procedures of both texts are in the tree. -/
example : ∃ M b, @Accepts stdLetters declText M ∧ NoQuoteNext wrongTail ∧
    @parse stdLetters (newAST (declText ++ '\n' :: wrongTail)) = .ret b ∧ b.err ≠ none ∧
    M.globals.length = 1 ∧ OnlyDeclarations M ∧ M.body.length = 1 ∧ b.mod.body.length = 2 := by
  have h : (match @parse stdLetters (newAST (declText ++ '\n' :: wrongTail)) with
      | .ret b => b.err.isSome && b.mod.body.length == 2
      | _ => false) = true := by decide +kernel
  cases e : @parse stdLetters (newAST (declText ++ '\n' :: wrongTail)) with
  | panic => rw [e] at h; cases h
  | loops => rw [e] at h; cases h
  | ret b =>
    rw [e] at h
    simp only [Bool.and_eq_true, beq_iff_eq] at h
    refine ⟨_, b, @accepts_modOf stdLetters _ (by decide +kernel), (noQuoteNext_iff _).2 (by decide +kernel), rfl, ?_, by decide +kernel, ?_,
      by decide +kernel, h.2⟩
    · intro e'; rw [e'] at h; cases h.1
    · have h : (@modOf stdLetters declText).body.all (fun i => match i with | .func _ => true | _ => false) = true := by decide +kernel
      intro i hi
      have := List.all_eq_true.1 h i hi
      cases i with
      | func f => exact ⟨f, rfl⟩
      | stm s => cases this

end Verif
