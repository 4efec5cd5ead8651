import Verif.Proofs.Again
import Verif.Proofs.Text
import Verif.Proofs.TextInv
import Verif.Proofs.LexAppend
import Verif.Proofs.Reprint.Write
/-!
# Texts one after the other
-/
namespace Verif
open Spec Lexer LR

/-! ## `Прервать` after more loops -/

theorem blocks_breaks_append : ∀ (bs cs : List Block) (n : Nat), blocksBreaksOk n bs → blocksBreaksOk 0 cs → blocksBreaksOk n (bs ++ cs)
  | [], cs, n, _, h => by
    have mono : ∀ (cs : List Block) (n m : Nat), n ≤ m → blocksBreaksOk n cs → blocksBreaksOk m cs := by
      intro cs
      induction cs with
      | nil => exact fun _ _ _ h => h
      | cons c cs ih => exact fun n m hn h => ⟨c.breaks_mono hn h.1, ih _ _ (by omega) h.2⟩
    exact mono cs 0 n (by omega) h
  | b :: bs, cs, n, h, h' => ⟨h.1, blocks_breaks_append bs cs _ h.2 h'⟩

/-! ## Writings -/

section
variable [Letters]

/-- The tokens at the end of declarations. -/
def declEnds : List Key := [word .kEndProcedure, word .kEndFunction, word .semi]

theorem wordEnds_append {r q : List Char} (h : WordEnds r) (hr : r ≠ []) : WordEnds (r ++ q) := by
  cases r with
  | nil => exact absurd rfl hr
  | cons c r => intro d r' e; injection e with e1 e2; subst e1; exact h c r rfl

omit [Letters] in
theorem notNext_append {c : Char} {r q : List Char} (h : NotNext c r) (hr : r ≠ []) : NotNext c (r ++ q) := by
  cases r with
  | nil => exact absurd rfl hr
  | cons d r => intro r' e; injection e with e1 e2; subst e1; exact h r rfl

/-- What may follow a token does not change if more is appended behind the next token. -/
theorem lexeme_append {dot : Bool} {w r q : List Char} {k : Key} {F : List Char → Prop} (h : Lexeme dot w k F) (hF : F r)
    (hr : skipSpace r ≠ []) : F (r ++ q) := by
  have hne : r ≠ [] := by rintro rfl; exact hr rfl
  cases h with
  | name | keyword | tru | fls | exec | directive | label => exact wordEnds_append hF hne
  | mark => exact fun e => notNext_append (hF e) hne
  | ne | le | ge => trivial
  | lt => exact ⟨notNext_append hF.1 hne, notNext_append hF.2 hne⟩
  | gt => exact notNext_append hF hne
  | number =>
    cases r with
    | nil => exact absurd rfl hne
    | cons c r => intro d r' e; injection e with e1 e2; subst e1; exact hF c r rfl
  | string | date => exact noQuoteNext_append hF hr q

theorem newline_notPart : ¬ WordPart '\n' := by
  rintro ((h | h) | h)
  · rw [Letters.ascii '\n' (by decide)] at h; revert h; decide
  · cases h
  · revert h; simp [Digit]

omit [Letters] in
theorem final_newline {s : List Char} (h : FinalLayout s) : Layout (s ++ ['\n']) := by
  cases h with
  | layout h => exact h.append (.blank (by simp [Blank]) .nil)
  | comment h h' =>
    rw [List.append_assoc]
    refine h.append ?_
    have := Layout.comment h' .nil
    simpa using this
  | hash h h' =>
    rw [List.append_assoc]
    refine h.append ?_
    have := Layout.hash h' .nil
    simpa using this

omit [Letters] in
theorem layout_of_spaces : ∀ {s : List Char}, skipSpace s = [] → Layout s
  | [], _ => .nil
  | c :: s, h => by
    rw [skipSpace] at h
    split at h
    · rename_i hc
      exact .blank ((isSpace_iff c).1 hc) (layout_of_spaces h)
    · cases h

theorem written_nonempty {dot : Bool} {s : List Char} {k : Key} {ks : List Key} (h : Written dot s (k :: ks)) : skipSpace s ≠ [] := by
  intro e
  obtain ⟨l, h1, h2⟩ := written_tokens h ⟨[], .nil, s, dot⟩ rfl rfl
  cases h1 with
  | eof _ => cases h2
  | next h3 _ =>
    have h4 := (lexNext_eof_iff ⟨[], .nil, s, dot⟩).2 (skipTrivia_final (.layout (layout_of_spaces e)))
    rw [h3] at h4
    cases h4

theorem lexeme_newline {dot : Bool} {w r0 r : List Char} {k : Key} {F : List Char → Prop} (h : Lexeme dot w k F) (hF : F r0)
    (hk : k ∈ declEnds) : F (r0 ++ '\n' :: r) := by
  have hw : WordEnds r0 → WordEnds (r0 ++ '\n' :: r) := by
    intro h
    cases r0 with
    | nil => intro d r' e; injection e with e1 e2; subst e1; exact newline_notPart
    | cons c r0 => exact wordEnds_append h (by simp)
  have hn : ∀ {c}, c ≠ '\n' → NotNext c r0 → NotNext c (r0 ++ '\n' :: r) := by
    intro c hc h
    cases r0 with
    | nil => intro r' e; injection e with e1 e2; exact hc e1.symm
    | cons c r0 => exact notNext_append h (by simp)
  cases h with
  | name | keyword | tru | fls | exec | directive | label => exact hw hF
  | mark => exact fun e => hn (by decide) (hF e)
  | ne | le | ge => trivial
  | lt => exact ⟨hn (by decide) hF.1, hn (by decide) hF.2⟩
  | gt => exact hn (by decide) hF
  | number =>
    cases r0 with
    | nil =>
      intro d r' e; injection e with e1 e2; subst e1
      rintro (h | h | h)
      · exact newline_notPart (.inr h)
      · cases h
      · exact newline_notPart (.inl h)
    | cons c r => intro d r' e; injection e with e1 e2; subst e1; exact hF c r rfl
  | string | date =>
    simp only [declEnds, List.mem_cons, List.not_mem_nil, or_false] at hk
    rcases hk with h | h | h <;> (injection h with h; exact absurd h (by decide))

/-- Two texts with a line feed between them, the first of which ends like a declaration. -/
theorem written_join {r : List Char} {ks' : List Key} (h' : Written false r ks') {dot : Bool} {s : List Char} {ks : List Key}
    (h : Written dot s ks) (hks : ∃ k ∈ declEnds, ks.getLast? = some k) : Written dot (s ++ '\n' :: r) (ks ++ ks') := by
  induction h with
  | done h => obtain ⟨k, -, e⟩ := hks; cases e
  | @next dot l w r0 k ks F hl hw hF h ih =>
    rw [List.append_assoc, List.append_assoc, List.cons_append]
    cases ks with
    | nil =>
      obtain ⟨k', hk', e⟩ := hks
      injection e with e; subst e
      cases h with
      | done hf =>
        have hlay := final_newline hf
        have hd : dotAfter dot k = false := by
          simp only [declEnds, List.mem_cons, List.not_mem_nil, or_false] at hk'
          rcases hk' with rfl | rfl | rfl <;> cases dot <;> decide
        refine .next hl hw ?_ ?_
        · exact lexeme_newline hw hF hk'
        · rw [hd, show r0 ++ '\n' :: r = (r0 ++ ['\n']) ++ r by simp]
          exact written_layout hlay h'
    | cons k2 ks =>
      refine .next hl hw (lexeme_append hw hF (written_nonempty h)) (ih ?_)
      simpa using hks

omit [Letters] in
theorem notBlank_right {s r : List Char} (h : NotBlank r) : NotBlank (s ++ r) := by
  obtain ⟨c, h1, h2⟩ := h
  exact ⟨c, List.mem_append_right _ h1, h2⟩
end

/-! ## Programs -/

/-- The declarations of `P`, then `Q`. -/
def joinP (P Q : Program) : Program := ⟨P.parts ++ Q.parts, Q.body⟩

theorem joinP_toks {P Q : Program} (h : P.body = .empty) : (joinP P Q).toks = P.toks ++ Q.toks := by
  simp [joinP, Program.toks, h, Block.toks]

theorem joinP_funcs (P Q : Program) : (joinP P Q).funcs = P.funcs ++ Q.funcs := by simp [joinP, Program.funcs]
theorem joinP_globals (P Q : Program) : (joinP P Q).globals = P.globals ++ Q.globals := by simp [joinP, Program.globals]

theorem joinP_tree {P Q : Program} (h : P.body = .empty) :
    (joinP P Q).tree = ⟨P.tree.globals ++ Q.tree.globals, P.tree.body ++ Q.tree.body⟩ := by
  simp only [Program.tree, joinP_funcs, joinP_globals, h, Block.tree, List.map_append, List.map_nil, List.append_nil, List.append_assoc]
  rfl

theorem parts_last {P : Program} (h : P.body = .empty) (hne : P.parts ≠ []) : ∃ k ∈ declEnds, P.toks.getLast? = some k := by
  obtain ⟨ps, x, e⟩ : ∃ ps x, P.parts = ps ++ [x] := ⟨_, _, (List.dropLast_append_getLast hne).symm⟩
  have hx : ∃ k ∈ declEnds, ∃ l, x.toks = l ++ [k] := by
    cases x with
    | vars v => exact ⟨word .semi, by simp [declEnds], directiveToks v.directive ++ word .kVar :: (v.names.toks ++ exportToks v.export), by
        simp [Part.toks, VarsD.toks]⟩
    | func f =>
      refine ⟨word (if f.isFunc then .kEndFunction else .kEndProcedure), ?_, directiveToks f.directive ++
        word (if f.isFunc then .kFunction else .kProcedure) :: ident f.name :: word .lpar ::
        (f.params.toks ++ word .rpar :: (exportToks f.export ++ ((f.vars.flatMap fun n => word .kVar :: (n.toks ++ [word .semi])) ++ f.body.toks))), by
        simp [Part.toks, FuncD.toks]⟩
      cases f.isFunc <;> simp [declEnds]
  obtain ⟨k, hk, l, hl⟩ := hx
  refine ⟨k, hk, ?_⟩
  simp [Program.toks, h, Block.toks, e, hl]

/-- The rules hold of both together. -/
theorem joinP_ok {P Q : Program} (hP : ProgOk P) (hQ : ProgOk Q) (ho : Q.globals = [] ∨ P.funcs = [])
    (hd : ∀ g ∈ P.globals, ∀ g' ∈ Q.globals, g.name ≠ g'.name) : ProgOk (joinP P Q) := by
  have hbl : (joinP P Q).blocks = P.funcs.map FuncD.body ++ Q.blocks := by
    simp [Program.blocks, joinP_funcs]; rfl
  have hbP : ∀ b ∈ P.funcs.map FuncD.body, b ∈ P.blocks := fun b hb => by simp only [Program.blocks, List.mem_append]; exact .inl hb
  refine ⟨?_, ?_, ?_, ?_, ?_, ?_, ?_⟩
  · refine ⟨?_, hQ.clean.2⟩
    rw [joinP_funcs]
    exact fun f hf => (List.mem_append.1 hf).elim (hP.clean.1 f) (hQ.clean.1 f)
  · unfold Program.breaksOk
    rw [hbl]
    refine blocks_breaks_append _ _ _ ?_ hQ.breaks
    have : ∀ (bs cs : List Block) (n : Nat), blocksBreaksOk n (bs ++ cs) → blocksBreaksOk n bs := by
      intro bs cs
      induction bs with
      | nil => exact fun _ _ => trivial
      | cons b bs ih => exact fun n h => ⟨h.1, ih _ h.2⟩
    exact this _ _ _ hP.breaks
  · unfold Program.throwsOk
    rw [hbl]
    exact fun b hb => (List.mem_append.1 hb).elim (fun hb => hP.throws b (hbP b hb)) (hQ.throws b)
  · refine ⟨?_, hQ.returns.2⟩
    rw [joinP_funcs]
    exact fun f hf => (List.mem_append.1 hf).elim (hP.returns.1 f) (hQ.returns.1 f)
  · unfold Program.colonsOk
    rw [hbl]
    exact fun b hb => (List.mem_append.1 hb).elim (fun hb => hP.colons b (hbP b hb)) (hQ.colons b)
  · constructor
    · rw [joinP_globals, List.map_append, List.nodup_append]
      refine ⟨hP.distinct.1, hQ.distinct.1, ?_⟩
      intro a ha b hb
      obtain ⟨g, hg, rfl⟩ := List.mem_map.1 ha
      obtain ⟨g', hg', rfl⟩ := List.mem_map.1 hb
      exact hd g hg g' hg'
    · rw [joinP_funcs]
      exact fun f hf => (List.mem_append.1 hf).elim (hP.distinct.2 f) (hQ.distinct.2 f)
  · obtain ⟨vs, fs, e⟩ := hP.ordered
    obtain ⟨vs', fs', e'⟩ := hQ.ordered
    have hfs : P.funcs = fs := by
      simp [Program.funcs, e, List.flatMap_append, List.flatMap_map, Part.funcs]
    rcases ho with ho | ho
    · have : vs' = [] := by
        cases vs' with
        | nil => rfl
        | cons v vs' =>
          exfalso
          have : v.names.first ∈ Q.globals.map GVar.name := by
            simp [Program.globals, e', Part.globals, VarsD.tree, Names.list]
          rw [ho] at this
          cases this
      exact ⟨vs, fs ++ fs', by simp [joinP, e, e', this]⟩
    · rw [hfs] at ho
      exact ⟨vs ++ vs', fs', by simp [joinP, e, e', ho]⟩

theorem body_ne : ∀ b : Body, b.clean → b.tree ≠ []
  | .one s, _ => by simp [Body.tree]
  | .sep .empty _ _, h => by simp [Body.clean] at h
  | .sep (.body b) _ s, h => by
    simp only [Body.clean] at h
    have := body_ne b h.1
    simp [Body.tree, Block.tree, this]

theorem block_empty {b : Block} (h1 : b.clean) (h2 : b.tree = []) : b = .empty := by
  cases b with
  | empty => rfl
  | body b =>
    simp only [Block.clean] at h1
    simp only [Block.tree] at h2
    exact absurd h2 (body_ne b h1)

end Verif
