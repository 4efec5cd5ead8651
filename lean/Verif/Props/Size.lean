import Verif.Proofs.Size
import Verif.Proofs.SizeGrow
import Verif.Proofs.SizeBound
import Verif.Props.Join
import Verif.Props.Walk
import Verif.Props.Reprint
/-!
# The size of a tree: C68

`Module.nodes` (`Spec/Size.lean`) counts declarations, parameters, variables, statements and expressions.
-/
namespace Verif
open Spec Lexer LR

section
variable [Letters]

/-- A text has at least as many characters as tokens. -/
theorem C68_tokens {code : List Char} {ks : List Key} (h : HasKeys code ks) : ks.length ≤ code.length := by
  obtain ⟨l, h, rfl⟩ := h
  have : ∀ {t : Tok} {l : List (Nat × Tok)}, Tokens t l → l.length ≤ t.rest.length := by
    intro t l h
    induction h with
    | eof _ => exact Nat.zero_le _
    | @next t t' k l h _ ih =>
      rcases C01_progress t with h1 | h1
      · rw [h] at h1; cases h1
      · rw [h] at h1
        rw [List.length_cons]
        have h1 : t'.rest.length < t.rest.length := h1
        omega
  rw [List.length_map]
  exact this h

/-- The tree of an accepted text has at most as many nodes as the text has tokens.  Missing: texts with blocks that begin with a
separator (where it is false, `C68_violated`). -/
theorem C68_size_partial {code : List Char} {M : Module} {ks : List Key} (hc : CleanText code) (h : Accepts code M) (hk : HasKeys code ks) :
    M.nodes ≤ ks.length := by
  by_cases hb : NotBlank code
  · obtain ⟨P, hs, hc⟩ := hc
    have hA := accepted hb hs h
    obtain rfl := Program.exact hc hA.shows
    obtain ⟨⟨l, h1, h2⟩, -⟩ := hs
    rw [hasKeys_unique hk ⟨l, h1, h2⟩]
    exact Size.program P
  · rw [accepts_blank hb h]
    exact Nat.zero_le _

/-- … and hence at most as many as the text has characters. -/
theorem C68_length_partial {code : List Char} {M : Module} (hc : CleanText code) (h : Accepts code M) : M.nodes ≤ code.length := by
  have ⟨P, ⟨⟨l, h1, h2⟩, _⟩, _⟩ := hc
  exact Nat.le_trans (C68_size_partial hc h ⟨l, h1, h2⟩) (C68_tokens ⟨l, h1, h2⟩)
end

/-! ## Examples -/

/-- The bound is met by a real program. -/
example : ∃ ks, @HasKeys stdLetters sampleText ks ∧ sampleProgram.tree.nodes ≤ ks.length ∧ 20 < sampleProgram.tree.nodes := by
  obtain ⟨⟨l, h1, h2⟩, h3⟩ := sample_spells
  exact ⟨_, ⟨l, h1, h2⟩, @C68_size_partial stdLetters _ _ _ ⟨_, ⟨⟨l, h1, h2⟩, h3⟩, sample_clean⟩ sample_accepted ⟨l, h1, h2⟩,
    by decide +kernel⟩

/-- Loops in loops, each with a block that begins with `;`. -/
def nestText : Nat → String
  | 0 => "б"
  | n + 1 => ";Пока а Цикл " ++ nestText n ++ " КонецЦикла"

/-- Several of them. -/
def bigText (n d : Nat) : List Char := (List.replicate n ("Пока а Цикл " ++ nestText d ++ " КонецЦикла;").toList).flatten

/-- The property does not hold: blocks that begin with `;` contain statements of earlier blocks, which contain statements of earlier blocks;
the tree of a text of 1450 characters has 13024 nodes. -/
theorem C68_violated : ∃ code M, @Accepts stdLetters code M ∧ 8 * code.length < M.nodes :=
  ⟨bigText 10 5, _, @accepts_modOf stdLetters _ (by decide +kernel), by decide +kernel⟩

/-- More than exponential it cannot be: whatever the text, accepted or not, the module has at most `5 ^ (15 n + 16)` nodes for `n` characters. -/
theorem C68_at_most [Letters] (code : List Char) (a : Ast) (h : parse (newAST code) = .ret a) :
    a.mod.nodes ≤ 5 ^ (15 * code.length + 16) :=
  Nat.le_trans (SizeBound.parse_small h) (Nat.le_of_eq (Nat.zero_add _))

/-- The nodes grow exponentially with the depth and the number of the blocks: a text of `31 + 32 * (m + 1) ^ 2` characters can have a tree
of at least `2 ^ m` nodes. -/
theorem C68_exponential (m : Nat) :
    ∃ code M, @Accepts stdLetters code M ∧ code.length = 31 + 32 * (m + 1) ^ 2 ∧ 2 ^ m ≤ M.nodes :=
  ⟨SizeGrow.text m (m + 1), _, SizeGrow.text_accepted m (m + 1),
    by rw [SizeGrow.text_length, Nat.pow_two, ← Nat.mul_assoc]; congr 2; omega, SizeGrow.text_nodes m⟩

/-- Both bounds hold of one text. -/
example (m : Nat) : ∃ code a, @parse stdLetters (newAST code) = .ret a ∧ 2 ^ m ≤ a.mod.nodes ∧ a.mod.nodes ≤ 5 ^ (15 * code.length + 16) := by
  obtain ⟨code, M, ⟨a, h1, -, rfl⟩, -, h4⟩ := C68_exponential m
  exact ⟨code, a, h1, h4, @C68_at_most stdLetters code a h1⟩

/-- And a text of that length can make `Print` write at least `2 ^ m` characters, in every layout, and `Walk` call its callback at least `2 ^ m`
times. -/
theorem C68_print_walk (m : Nat) : ∃ code M, @Accepts stdLetters code M ∧ code.length = 31 + 32 * (m + 1) ^ 2 ∧
    (∀ cf s, Prints cf M s → 2 ^ m ≤ s.length) ∧ 2 ^ m ≤ (walk recorder [] M).1.length := by
  refine ⟨SizeGrow.text m (m + 1), _, SizeGrow.text_accepted m (m + 1),
    by rw [SizeGrow.text_length, Nat.pow_two, ← Nat.mul_assoc]; congr 2; omega,
    fun cf s h => Nat.le_trans (SizeGrow.text_nodes m) (SizeGrow.text_print h), ?_⟩
  obtain ⟨l, h1, h2, -⟩ := C40_walk_visits ⟨[], (.tryS [] [] :: SizeGrow.built m (m + 1) fun _ => []).map .stm⟩
  have h3 := SizeGrow.text_inside m (m + 1)
  rw [h1, List.length_map]
  refine Nat.le_trans (SizeGrow.text_nodes m) (Nat.le_trans h3 ?_)
  rw [← h2, List.length_map]
  exact List.length_filter_le _ _

/-- So no power of the length bounds the nodes. -/
theorem C68_no_power (k : Nat) : ∃ code M, @Accepts stdLetters code M ∧ code.length ^ k < M.nodes := by
  obtain ⟨s, hs⟩ : ∃ s, s = 2 * k + 8 := ⟨_, rfl⟩
  have hpos : 1 ≤ 2 ^ s := Nat.one_le_two_pow
  obtain ⟨code, M, h, hl, hn⟩ := C68_exponential (2 ^ s - 1)
  refine ⟨code, M, h, Nat.lt_of_lt_of_le ?_ hn⟩
  rw [Nat.sub_add_cancel hpos, ← Nat.pow_mul] at hl
  have h1 : code.length ≤ 2 ^ (6 + s * 2) := by
    rw [hl, Nat.pow_add]
    have := Nat.one_le_two_pow (n := s * 2)
    omega
  refine Nat.lt_of_le_of_lt (Nat.pow_le_pow_left h1 k) ?_
  rw [← Nat.pow_mul]
  refine Nat.pow_lt_pow_right (by decide) ?_
  have h2 : (k + 1) * (k + 1) ≤ 2 ^ k * 2 ^ k := Nat.mul_le_mul Nat.lt_two_pow_self Nat.lt_two_pow_self
  have h3 : 2 ^ s = 2 ^ k * 2 ^ k * 256 := by rw [hs, Nat.two_mul, Nat.pow_add, Nat.pow_add]
  have h4 : (k + 1) * (k + 1) = k * k + 2 * k + 1 := by rw [Nat.mul_succ, Nat.succ_mul]; omega
  have h5 : (6 + s * 2) * k = 4 * (k * k) + 22 * k := by
    rw [show 6 + s * 2 = 4 * k + 22 by omega, Nat.add_mul, Nat.mul_assoc]
  omega

/-- One of these texts: `m = 1`. -/
example : SizeGrow.text 1 2 = "Попытка Исключение КонецПопытки;Попытка;Попытка Исключение КонецПопытки Исключение КонецПопытки;Попытка;Попытка Исключение КонецПопытки Исключение КонецПопытки".toList := by
  decide +kernel

end Verif
