import Verif.Proofs.Reprint.Module
/-!
# Trees of programs hold what tokens can hold
-/
namespace Verif
open Spec Lexer LR

variable [Letters]

/-! ## Tokens one by one -/

omit [Letters] in
theorem kind_inj {t t' : Terminal} (h : t.kind = t'.kind) : t = t' := by
  cases t <;> cases t' <;> first | rfl | exact absurd h (by decide)

/-- A token that can be written. -/
def CanWrite (dot : Bool) (k : Key) : Prop := ∃ w F, Lexeme dot w k F

omit [Letters] in
theorem mark_plain {c t} (h : (c, t) ∈ marks) :
    t ∉ [Terminal.ktoken_identifier, .kExecute, .kNumber, .kString, .kDate, .kDirective, .kGoToLabel] := by
  have : ∀ p ∈ marks, p.2 ∉ [Terminal.ktoken_identifier, .kExecute, .kNumber, .kString, .kDate, .kDirective, .kGoToLabel] := by decide
  exact this _ h

theorem CanWrite.name {dot n} (h : CanWrite dot (ident n)) : NameOk dot n := by
  obtain ⟨w, F, h⟩ := h
  generalize hk : ident n = k at h
  cases h with
  | name hw hk' => injection hk with _ e; subst e; exact ⟨hw, hk'⟩
  | keyword _ _ ht => injection hk with e; exact absurd (kind_inj e).symm (by simp at ht; tauto)
  | mark hm => injection hk with e; exact absurd (mark_plain hm) (by rw [← kind_inj e]; decide)
  | _ => injection hk with e; exact absurd (kind_inj e) (by decide)

theorem CanWrite.exec {dot n} (h : CanWrite dot (named .kExecute n)) : dot = false ∧ ExecOk n := by
  obtain ⟨w, F, h⟩ := h
  generalize hk : named .kExecute n = k at h
  cases h with
  | exec hw hk' => injection hk with _ e; subst e; exact ⟨rfl, hw, hk'⟩
  | keyword _ _ ht => injection hk with e; exact absurd (kind_inj e).symm (by simp at ht; tauto)
  | mark hm => injection hk with e; exact absurd (mark_plain hm) (by rw [← kind_inj e]; decide)
  | _ => injection hk with e; exact absurd (kind_inj e) (by decide)

omit [Letters] in
theorem keyword_plain {w k} (h : KindOf w k) : k = identNumber ∨ ∃ t : Terminal, t.kind = k ∧
    t ∉ [Terminal.ktoken_identifier, .kGoToLabel, .kDirective, .kNumber, .kString, .kDate] := by
  cases h with
  | ident => exact .inl rfl
  | keyword hm => exact .inr (keyword_terminal hm)

theorem CanWrite.plain {dot t n v} (h : CanWrite dot ⟨Terminal.kind t, n, v⟩)
    (ht : t ∈ [Terminal.kGoToLabel, .kDirective, .kNumber, .kString, .kDate]) :
    (∃ x, t = .kNumber ∧ v = .num x ∧ Finite64 x) ∨ (∃ x, t = .kString ∧ v = .str x ∧ StrVal x) ∨
    (∃ x, t = .kDate ∧ v = .date x ∧ CalendarDate x) ∨ (t = .kDirective ∧ DirOk n ∧ n ≠ []) ∨ (t = .kGoToLabel ∧ ∀ c ∈ n, WordPart c) := by
  obtain ⟨w, F, h⟩ := h
  generalize hk : (⟨Terminal.kind t, n, v⟩ : Key) = k at h
  cases h with
  | number h1 h2 =>
    injection hk with e1 e2 e3
    exact .inl ⟨_, kind_inj e1, e3, (parseFloat_nearest h1 h2).1⟩
  | string h =>
    injection hk with e1 e2 e3
    exact .inr (.inl ⟨_, kind_inj e1, e3, strSrc_val h⟩)
  | date _ h =>
    injection hk with e1 e2 e3
    refine .inr (.inr (.inl ⟨_, kind_inj e1, e3, ?_⟩))
    cases h with
    | zero => exact ⟨by decide, by decide, by decide, by decide, by decide, by decide⟩
    | date _ h _ => exact h
  | directive h =>
    injection hk with e1 e2 e3
    exact .inr (.inr (.inr (.inl ⟨kind_inj e1, by rw [e2]; exact ⟨.inr ⟨_, rfl, h⟩, by simp⟩⟩)))
  | label h =>
    injection hk with e1 e2 e3
    exact .inr (.inr (.inr (.inr ⟨kind_inj e1, by rw [e2]; exact h⟩)))
  | keyword _ hkd hi =>
    injection hk with e
    rcases keyword_plain hkd with e' | ⟨t', e', ht'⟩
    · rw [← e] at e'
      rw [kind_inj (t' := .ktoken_identifier) e'] at ht
      exact absurd ht (by decide)
    · rw [← e] at e'
      rw [kind_inj e'] at ht'
      simp only [List.mem_cons, List.not_mem_nil, or_false] at ht ht'
      tauto
  | mark hm =>
    injection hk with e
    have := mark_plain hm
    rw [← kind_inj e] at this
    simp only [List.mem_cons, List.not_mem_nil, or_false] at ht this
    tauto
  | _ =>
    injection hk with e
    rw [kind_inj e] at ht
    exact absurd ht (by decide)

theorem CanWrite.num {dot x} (h : CanWrite dot (literal .kNumber (.num x))) : Finite64 x := by
  rcases CanWrite.plain h (by decide) with ⟨y, _, e, h⟩ | ⟨y, e, _⟩ | ⟨y, e, _⟩ | ⟨e, _⟩ | ⟨e, _⟩ <;> cases e
  exact h
theorem CanWrite.str {dot x} (h : CanWrite dot (literal .kString (.str x))) : StrVal x := by
  rcases CanWrite.plain h (by decide) with ⟨y, e, _⟩ | ⟨y, _, e, h⟩ | ⟨y, e, _⟩ | ⟨e, _⟩ | ⟨e, _⟩ <;> cases e
  exact h
theorem CanWrite.date {dot x} (h : CanWrite dot (literal .kDate (.date x))) : CalendarDate x := by
  rcases CanWrite.plain h (by decide) with ⟨y, e, _⟩ | ⟨y, e, _⟩ | ⟨y, _, e, h⟩ | ⟨e, _⟩ | ⟨e, _⟩ <;> cases e
  exact h
theorem CanWrite.dir {dot x} (h : CanWrite dot (named .kDirective x)) : DirOk x := by
  rcases CanWrite.plain h (by decide) with ⟨y, e, _⟩ | ⟨y, e, _⟩ | ⟨y, e, _⟩ | ⟨e, h⟩ | ⟨e, _⟩ <;> cases e
  exact h.1
theorem CanWrite.label {dot x} (h : CanWrite dot (named .kGoToLabel x)) : ∀ c ∈ x, WordPart c := by
  rcases CanWrite.plain h (by decide) with ⟨y, e, _⟩ | ⟨y, e, _⟩ | ⟨y, e, _⟩ | ⟨e, _⟩ | ⟨e, h⟩ <;> cases e
  exact h

/-! ## The state behind tokens -/

def after (dot : Bool) (ks : List Key) : Bool := ks.foldl dotAfter dot

theorem KeysOk.append {dot a b} (h : KeysOk dot (a ++ b)) : KeysOk dot a ∧ KeysOk (after dot a) b := by
  induction a generalizing dot with
  | nil => exact ⟨.nil, h⟩
  | cons k a ih =>
    cases h with
    | cons h1 h2 => exact ⟨.cons h1 (ih h2).1, (ih h2).2⟩

theorem KeysOk.head {dot k a} (h : KeysOk dot (k :: a)) : CanWrite dot k := by
  cases h with
  | cons h _ => exact h

omit [Letters] in
theorem dotAfter_no {dot} {t : Terminal} {n v} (h : t ≠ .dot) : dotAfter dot ⟨t.kind, n, v⟩ = false := by
  simp [dotAfter, notDot h]

theorem KeysOk.rest {dot} {t : Terminal} {n v a} (h : KeysOk dot (⟨t.kind, n, v⟩ :: a)) (ht : t ≠ .dot) : KeysOk false a := by
  cases h with
  | cons _ h =>
    rw [dotAfter_no ht] at h
    exact h

omit [Letters] in
theorem after_append {dot a b} : after dot (a ++ b) = after (after dot a) b := by
  unfold after
  rw [List.foldl_append]

omit [Letters] in
theorem after_last {dot a} {t : Terminal} {n v} (h : t ≠ .dot) : after dot (a ++ [⟨t.kind, n, v⟩]) = false := by
  rw [after_append]
  exact dotAfter_no h

omit [Letters] in
theorem after_cons {dot} {t : Terminal} {n v a} (h : t ≠ .dot) : after dot (⟨t.kind, n, v⟩ :: a) = after false a := by
  show after (dotAfter dot _) a = _
  rw [dotAfter_no h]

omit [Letters] in
theorem after_mid {dot} {t : Terminal} {n v a b} (h : t ≠ .dot) : after dot (a ++ ⟨t.kind, n, v⟩ :: b) = after false b := by
  rw [after_append, after_cons h]

omit [Letters] in
theorem op_not_dot (op : Op) : opTerminal op ≠ .dot := by cases op <;> decide

omit [Letters] in
mutual
theorem Spec.Expr.after_false : ∀ (e : Expr) (dot), after dot e.toks = false
  | .simple s, dot => s.after_false dot
  | .paren es, dot => by
    unfold Expr.toks
    rw [word, after_cons (by decide)]
    exact after_last (by decide)
  | .bin op a b, dot => by
    unfold Expr.toks
    rw [word, after_mid (op_not_dot op)]
    exact b.after_false false
  | .not e, dot => by
    unfold Expr.toks
    rw [word, after_cons (by decide)]
    exact e.after_false false
  | .new n, dot => n.after_false dot
  | .goto l, dot => by
    unfold Expr.toks
    exact after_last (a := [word .kGoTo]) (by decide)
  | .ternary c a b, dot => by
    unfold Expr.toks
    rw [show word .quest :: word .lpar :: (c.toks ++ word .comma :: (a.toks ++ word .comma :: (b.toks ++ [word .rpar]))) =
      (word .quest :: word .lpar :: (c.toks ++ word .comma :: (a.toks ++ word .comma :: b.toks))) ++ [word .rpar] by simp]
    exact after_last (by decide)
  | .path p, dot => p.after_false dot
theorem Spec.Simple.after_false : ∀ (s : Simple) (dot), after dot s.toks = false
  | .str s, dot => after_last (a := []) (by decide)
  | .num x, dot => after_last (a := []) (by decide)
  | .neg e, dot => by
    unfold Simple.toks
    rw [word, after_cons (by decide)]
    exact e.after_false false
  | .pos e, dot => by
    unfold Simple.toks
    rw [word, after_cons (by decide)]
    exact e.after_false false
  | .bool true, dot => after_last (a := []) (by decide)
  | .bool false, dot => after_last (a := []) (by decide)
  | .date t, dot => after_last (a := []) (by decide)
  | .undef, dot => after_last (a := []) (by decide)
  | .label n, dot => after_last (a := []) (by decide)
theorem Spec.New.after_false : ∀ (n : New) (dot), after dot n.toks = false
  | .name c, dot => after_last (a := [word .kNew]) (by decide)
  | .call c es, dot => by
    unfold New.toks
    exact after_last (a := word .kNew :: ident c :: word .lpar :: es.toks) (by decide)
  | .args es, dot => by
    unfold New.toks
    exact after_last (a := word .kNew :: word .lpar :: es.toks) (by decide)
theorem Spec.Path.after_false : ∀ (p : Path) (dot), after dot p.toks = false
  | .one i, dot => i.after_false dot
  | .dot p i, dot => by
    unfold Path.toks
    rw [after_append]
    exact i.after_false _
theorem Spec.Ident.after_false : ∀ (i : Ident) (dot), after dot i.toks = false
  | .name n, dot => after_last (a := []) (by decide)
  | .call n es, dot => by
    unfold Ident.toks
    exact after_last (a := ident n :: word .lpar :: es.toks) (by decide)
  | .index i e, dot => by
    unfold Ident.toks
    rw [after_append]
    exact after_last (a := word .lbr :: e.toks) (by decide)
  | .execStr w s, dot => after_last (a := [named .kExecute w]) (by decide)
  | .execVar w n, dot => after_last (a := [named .kExecute w]) (by decide)
  | .exec w e, dot => by
    unfold Ident.toks
    exact after_last (a := named .kExecute w :: word .lpar :: e.toks) (by decide)
end

omit [Letters] in
theorem Spec.OptExpr.after_false : ∀ (e : OptExpr), after false e.toks = false
  | .none => rfl
  | .some e => e.after_false false

omit [Letters] in
theorem Spec.Args.after_false : ∀ (a : Args), after false a.toks = false
  | .one e => e.after_false
  | .more es e => by
    unfold Args.toks
    rw [word, after_mid (by decide)]
    exact e.after_false

/-! ## Expressions -/

omit [Letters] in
theorem saneE_nil [Letters] {s} (h : SaneE s) : s ≠ .nil := by
  cases h <;> simp

theorem SaneI.expr {s} (h : SaneI false s) : SaneE s := by
  cases h with
  | name h => exact .var h
  | call h1 h2 => exact .call (.call h1 h2)
  | exec h1 h2 => exact .call (.exec h1 h2)
  | item h1 h2 => exact .item (.item h1 h2)

theorem SaneP.expr {s} (h : SaneP s) : SaneE s := by
  cases h with
  | one h => exact h.expr
  | dot h1 h2 => exact .chain (.dot h1 h2)

omit [Letters] in
theorem finite_negate {x : F64} (h : Finite64 x) : Finite64 x.negate := by
  cases x; exact h

theorem SaneE.withMinus {s} (h : SaneE s) : SaneE (withMinus s) := by
  cases h with
  | num h => exact .num (finite_negate h)
  | var h => exact .var h
  | chain h => exact .chain h
  | bin h1 h2 => exact .bin h1 h2
  | str h => exact .str h
  | bool => exact .bool
  | date h => exact .date h
  | undef => exact .undef
  | call h => exact .call h
  | item h => exact .item h
  | ternary h1 h2 h3 => exact .ternary h1 h2 h3
  | new h1 h2 => exact .new h1 h2
  | exprs h => exact .exprs h
  | label h => exact .label h
  | goto h => exact .goto h

theorem SaneE.withNot {s} (h : SaneE s) : SaneE (withNot s) := by
  cases h with
  | num h => exact .num h
  | var h => exact .var h
  | chain h => exact .chain h
  | bin h1 h2 => exact .bin h1 h2
  | str h => exact .str h
  | bool => exact .bool
  | date h => exact .date h
  | undef => exact .undef
  | call h => exact .call h
  | item h => exact .item h
  | ternary h1 h2 h3 => exact .ternary h1 h2 h3
  | new h1 h2 => exact .new h1 h2
  | exprs h => exact .exprs h
  | label h => exact .label h
  | goto h => exact .goto h

theorem KeysOk.left {dot a b} (h : KeysOk dot (a ++ b)) : KeysOk dot a := h.append.1

theorem KeysOk.right {dot a} {t : Terminal} {n v b} (h : KeysOk dot (a ++ ⟨t.kind, n, v⟩ :: b)) (ht : t ≠ .dot) : KeysOk false b :=
  h.append.2.rest ht

mutual
theorem Spec.Expr.sane : ∀ (e : Expr), KeysOk false e.toks → SaneE e.tree
  | .simple s, h => s.sane h
  | .paren es, h => by
    unfold Expr.toks at h
    exact .exprs (es.sane (h.rest (by decide)).left)
  | .bin op a b, h => by
    unfold Expr.toks at h
    exact .bin (a.sane h.left) (b.sane (h.right (op_not_dot op)))
  | .not e, h => by
    unfold Expr.toks at h
    exact (e.sane (h.rest (by decide))).withNot
  | .new n, h => n.sane h
  | .goto l, h => by
    unfold Expr.toks at h
    exact .goto (h.rest (by decide)).head.label
  | .ternary c a b, h => by
    unfold Expr.toks at h
    have h := ((h.rest (by decide)).rest (by decide))
    have h2 := h.right (by decide)
    exact .ternary (c.sane h.left) (a.sane h2.left) (b.sane (h2.right (by decide)).left)
  | .path p, h => (p.sane h).expr
theorem Spec.Simple.sane : ∀ (s : Simple), KeysOk false s.toks → SaneE s.tree
  | .str s, h => .str h.head.str
  | .num x, h => .num h.head.num
  | .neg e, h => by
    unfold Simple.toks at h
    exact (e.sane (h.rest (by decide))).withMinus
  | .pos e, h => by
    unfold Simple.toks at h
    exact e.sane (h.rest (by decide))
  | .bool b, h => .bool
  | .date t, h => .date h.head.date
  | .undef, h => .undef
  | .label n, h => .label h.head.label
theorem Spec.New.sane : ∀ (n : New), KeysOk false n.toks → SaneE n.tree
  | .name c, h => by
    unfold New.toks at h
    exact .new (.inr (h.rest (by decide)).head.name) (by simp)
  | .call c es, h => by
    unfold New.toks at h
    have h := h.rest (by decide)
    exact .new (.inr h.head.name) (es.sane ((h.rest (by decide)).rest (by decide)).left)
  | .args es, h => by
    unfold New.toks at h
    exact .new (.inl rfl) (es.sane ((h.rest (by decide)).rest (by decide)).left)
theorem Spec.Path.sane : ∀ (p : Path), KeysOk false p.toks → SaneP p.tree
  | .one i, h => .one (i.sane false h)
  | .dot p i, h => by
    unfold Path.toks at h
    have h2 := h.append.2
    rw [p.after_false] at h2
    cases h2 with
    | cons _ h2 => exact .dot (p.sane h.left) (i.sane true h2)
theorem Spec.Ident.sane : ∀ (i : Ident) (dot), KeysOk dot i.toks → SaneI dot i.tree
  | .name n, dot, h => .name h.head.name
  | .call n es, dot, h => by
    unfold Ident.toks at h
    exact .call h.head.name (es.sane ((h.rest (by decide)).rest (by decide)).left)
  | .index i e, dot, h => by
    unfold Ident.toks at h
    exact .item (i.sane dot h.left) (e.sane (h.right (by decide)).left)
  | .execStr w s, dot, h => by
    unfold Ident.toks at h
    obtain ⟨rfl, h1⟩ := h.head.exec
    exact .exec h1 (.str (h.rest (by decide)).head.str)
  | .execVar w n, dot, h => by
    unfold Ident.toks at h
    obtain ⟨rfl, h1⟩ := h.head.exec
    exact .exec h1 (.var (h.rest (by decide)).head.name)
  | .exec w e, dot, h => by
    unfold Ident.toks at h
    obtain ⟨rfl, h1⟩ := h.head.exec
    exact .exec h1 (e.sane ((h.rest (by decide)).rest (by decide)).left)
theorem Spec.Args.sane : ∀ (a : Args), KeysOk false a.toks → ∀ s ∈ a.tree, SaneO s
  | .one e, h => fun s hs => by
    unfold Args.tree at hs
    obtain rfl := List.mem_singleton.1 hs
    exact e.sane h
  | .more es e, h => fun s hs => by
    unfold Args.tree at hs
    unfold Args.toks at h
    rcases List.mem_append.1 hs with hs | hs
    · exact es.sane h.left s hs
    · obtain rfl := List.mem_singleton.1 hs
      exact e.sane (h.right (by decide))
theorem Spec.OptExpr.sane : ∀ (e : OptExpr), KeysOk false e.toks → SaneO e.tree
  | .none, _ => .none
  | .some e, h => .some (e.sane h)
end

theorem Spec.New.sane2 {n : New} (h : KeysOk false n.toks) : ∃ c ps, n.tree = .new c ps ∧ (c = [] ∨ NameOk false c) ∧ ∀ s ∈ ps, SaneO s := by
  have := n.sane h
  cases n <;> (cases this with | new h1 h2 => exact ⟨_, _, rfl, h1, h2⟩)

theorem Spec.Source.sane : ∀ (s : Source), KeysOk false s.toks → SaneSrc s.tree
  | .path p, h => .path (p.sane h)
  | .new n, h => by
    obtain ⟨c, ps, e, h1, h2⟩ := Spec.New.sane2 (n := n) h
    show SaneSrc n.tree
    rw [e]; exact .new h1 h2
  | .parenNew n, h => by
    obtain ⟨c, ps, e, h1, h2⟩ := Spec.New.sane2 (n := n) (h.rest (by decide)).left
    show SaneSrc n.tree
    rw [e]; exact .new h1 h2
  | .ternary c a b, h => by
    have := (Expr.ternary c a b).sane h
    cases this with
    | ternary h1 h2 h3 => exact .ternary h1 h2 h3

/-! ## Statements -/

omit [Letters] in
theorem sep_not_dot (p : Sep) : ∃ t : Terminal, p.tok = word t ∧ t ≠ .dot := by
  cases p
  · exact ⟨_, rfl, by decide⟩
  · exact ⟨_, rfl, by decide⟩

omit [Letters] in
theorem stmt_last : ∀ (s : Stmt) (dot), after dot s.toks = false
  | .assign p e, dot => by
    unfold Stmt.toks
    rw [word, after_mid (by decide)]
    exact e.after_false _
  | .expr e, dot => e.after_false dot
  | .ifS c t es e, dot => by
    unfold Stmt.toks
    rw [show word .kIf :: (c.toks ++ word .kThen :: (t.toks ++ (es.toks ++ (e.toks ++ [word .kEndIf])))) =
      (word .kIf :: (c.toks ++ word .kThen :: (t.toks ++ (es.toks ++ e.toks)))) ++ [word .kEndIf] by simp]
    exact after_last (by decide)
  | .forEach n s b, dot => by
    unfold Stmt.toks
    rw [show word .kFor :: word .kEach :: ident n :: word .kIn :: (s.toks ++ word .kLoop :: (b.toks ++ [word .kEndLoop])) =
      (word .kFor :: word .kEach :: ident n :: word .kIn :: (s.toks ++ word .kLoop :: b.toks)) ++ [word .kEndLoop] by simp]
    exact after_last (by decide)
  | .forTo a z b, dot => by
    unfold Stmt.toks
    rw [show word .kFor :: (a.toks ++ word .kTo :: (z.toks ++ word .kLoop :: (b.toks ++ [word .kEndLoop]))) =
      (word .kFor :: (a.toks ++ word .kTo :: (z.toks ++ word .kLoop :: b.toks))) ++ [word .kEndLoop] by simp]
    exact after_last (by decide)
  | .while c b, dot => by
    unfold Stmt.toks
    rw [show word .kWhile :: (c.toks ++ word .kLoop :: (b.toks ++ [word .kEndLoop])) =
      (word .kWhile :: (c.toks ++ word .kLoop :: b.toks)) ++ [word .kEndLoop] by simp]
    exact after_last (by decide)
  | .tryS b h, dot => by
    unfold Stmt.toks
    rw [show word .kTry :: (b.toks ++ word .kCatch :: (h.toks ++ [word .kEndTry])) =
      (word .kTry :: (b.toks ++ word .kCatch :: h.toks)) ++ [word .kEndTry] by simp]
    exact after_last (by decide)
  | .cont, dot => after_last (a := []) (by decide)
  | .brk, dot => after_last (a := []) (by decide)
  | .throw e, dot => by
    unfold Stmt.toks
    rw [word, after_cons (by decide)]
    exact e.after_false
  | .ret e, dot => by
    unfold Stmt.toks
    rw [word, after_cons (by decide)]
    exact e.after_false

omit [Letters] in
theorem block_last : ∀ (b : Block), after false b.toks = false
  | .empty => rfl
  | .body (.one s) => stmt_last s false
  | .body (.sep b p s) => by
    obtain ⟨t, e, ht⟩ := sep_not_dot p
    show after false (b.toks ++ p.tok :: s.toks) = false
    rw [e, word, after_mid ht]
    cases s with
    | none => rfl
    | some s => exact stmt_last s false

omit [Letters] in
theorem elifs_last : ∀ (e : Elifs), after false e.toks = false
  | .nil => rfl
  | .cons c b r => by
    unfold Elifs.toks
    rw [word, after_cons (by decide), word, after_mid (by decide), after_append, block_last]
    exact elifs_last r

mutual
theorem Spec.Stmt.sane : ∀ (s : Stmt), KeysOk false s.toks → SaneS s.tree
  | .assign p e, h => by
    unfold Stmt.toks at h
    exact .assign (p.sane h.left) (e.sane (h.right (by decide)))
  | .expr e, h => .expr (e.sane h)
  | .ifS c t es e, h => by
    unfold Stmt.toks at h
    have h1 := h.rest (by decide)
    have h2 := h1.right (by decide)
    have h3 := h2.append.2
    rw [block_last] at h3
    have h4 := h3.append.2
    rw [elifs_last] at h4
    exact .ifS (c.sane h1.left) (t.sane h2.left) (fun s hs => es.sane h3.left s (List.mem_reverse.1 hs)) (e.sane h4.left)
  | .forEach n s b, h => by
    unfold Stmt.toks at h
    have h1 := (h.rest (by decide)).rest (by decide)
    have h2 := (h1.rest (by decide)).rest (by decide)
    exact .forEach h1.head.name (s.sane h2.left) (b.sane (h2.right (by decide)).left)
  | .forTo a z b, h => by
    unfold Stmt.toks at h
    have h1 := h.rest (by decide)
    have h2 := h1.right (by decide)
    exact .forTo (a.sane h1.left) (z.sane h2.left) (b.sane (h2.right (by decide)).left)
  | .while c b, h => by
    unfold Stmt.toks at h
    have h1 := h.rest (by decide)
    exact .whileS (c.sane h1.left) (b.sane (h1.right (by decide)).left)
  | .tryS b hb, h => by
    unfold Stmt.toks at h
    have h1 := h.rest (by decide)
    exact .tryS (b.sane h1.left) (hb.sane (h1.right (by decide)).left)
  | .cont, h => .cont
  | .brk, h => .brk
  | .throw e, h => by
    unfold Stmt.toks at h
    exact .throw (e.sane (h.rest (by decide)))
  | .ret e, h => by
    unfold Stmt.toks at h
    exact .ret (e.sane (h.rest (by decide)))
theorem Spec.Elifs.sane : ∀ (e : Elifs), KeysOk false e.toks → ∀ s ∈ e.tree, SaneElif s
  | .nil, _ => fun s hs => by unfold Elifs.tree at hs; cases hs
  | .cons c b r, h => fun s hs => by
    unfold Elifs.tree at hs
    unfold Elifs.toks at h
    have h1 := h.rest (by decide)
    have h2 := h1.right (by decide)
    have h3 := h2.append.2
    rw [block_last] at h3
    rcases List.mem_cons.1 hs with rfl | hs
    · exact .mk (c.sane h1.left) (b.sane h2.left)
    · exact r.sane h3 s hs
theorem Spec.Else.sane : ∀ (e : Else), KeysOk false e.toks → ∀ s ∈ e.tree, SaneS s
  | .none, _ => fun s hs => by unfold Else.tree at hs; cases hs
  | .some b, h => b.sane (h.rest (by decide))
theorem Spec.Block.sane : ∀ (b : Block), KeysOk false b.toks → ∀ s ∈ b.tree, SaneS s
  | .empty, _ => fun s hs => by unfold Block.tree at hs; cases hs
  | .body b, h => b.sane h
theorem Spec.Body.sane : ∀ (b : Body), KeysOk false b.toks → ∀ s ∈ b.tree, SaneS s
  | .one s, h => fun x hx => by
    unfold Body.tree at hx
    obtain rfl := List.mem_singleton.1 hx
    exact s.sane h
  | .sep b p s, h => fun x hx => by
    unfold Body.tree at hx
    unfold Body.toks at h
    obtain ⟨t, e, ht⟩ := sep_not_dot p
    rw [e] at h
    rcases List.mem_append.1 hx with hx | hx
    · exact b.sane h.left x hx
    · exact s.sane (h.right ht) x hx
theorem Spec.OptStmt.sane : ∀ (s : OptStmt), KeysOk false s.toks → ∀ x ∈ s.tree, SaneS x
  | .none, _ => fun x hx => by unfold OptStmt.tree at hx; cases hx
  | .some s, h => fun x hx => by
    unfold OptStmt.tree at hx
    obtain rfl := List.mem_singleton.1 hx
    exact s.sane h
end

/-! ## Declarations -/

omit [Letters] in
theorem flat_last {α : Type} {f : α → List Key} {l : List α} (hf : ∀ x ∈ l, after false (f x) = false) : after false (l.flatMap f) = false := by
  induction l with
  | nil => rfl
  | cons a l ih =>
    rw [List.flatMap_cons, after_append, hf a (by simp)]
    exact ih fun x hx => hf x (by simp [hx])

theorem flat_ok {α : Type} {f : α → List Key} {l : List α} (hf : ∀ x ∈ l, after false (f x) = false) (h : KeysOk false (l.flatMap f)) :
    ∀ x ∈ l, KeysOk false (f x) := by
  induction l with
  | nil => intro x hx; cases hx
  | cons a l ih =>
    rw [List.flatMap_cons] at h
    intro x hx
    rcases List.mem_cons.1 hx with rfl | hx
    · exact h.left
    · have h2 := h.append.2
      rw [hf a (by simp)] at h2
      exact ih (fun x hx => hf x (by simp [hx])) h2 x hx

omit [Letters] in
theorem names_last (n : Names) : after false n.toks = false := by
  unfold Names.toks
  rw [ident, named, after_cons (by decide)]
  exact flat_last fun x _ => after_last (a := [word .comma]) (by decide)

theorem names_ok {n : Names} (h : KeysOk false n.toks) : ∀ x ∈ n.list, NameOk false x := by
  unfold Names.toks at h
  intro x hx
  rcases List.mem_cons.1 hx with rfl | hx
  · exact h.head.name
  · have := flat_ok (fun x _ => after_last (a := [word .comma]) (by decide)) (h.rest (by decide)) x hx
    exact (this.rest (by decide)).head.name

omit [Letters] in
theorem default_last (s : Simple) : after false (word .kEQUAL :: s.toks) = false := by
  rw [word, after_cons (by decide)]
  exact s.after_false false

omit [Letters] in
theorem param_last (p : ParamD) : after false p.toks = false := by
  unfold ParamD.toks
  rw [ident, named, after_mid (by decide)]
  exact flat_last fun x _ => default_last x

theorem param_ok {p : ParamD} (h : KeysOk false p.toks) : SaneParam p.tree := by
  unfold ParamD.toks at h
  have h1 : KeysOk false (ident p.name :: p.defaults.flatMap fun s => word .kEQUAL :: s.toks) := by
    cases hb : p.byVal <;> rw [hb] at h
    · exact h
    · exact h.rest (by decide)
  have h2 := flat_ok (fun x _ => default_last x) (h1.rest (by decide))
  refine ⟨h1.head.name, ?_⟩
  unfold ParamD.tree
  dsimp only
  split
  · exact .none
  · rename_i s hs
    exact .some (s.sane ((h2 s (List.mem_of_getLast? hs)).rest (by decide)))

omit [Letters] in
theorem params_last (p : ParamsD) : after false p.toks = false := by
  unfold ParamsD.toks
  have h : ∀ x : ParamD, after false (word .comma :: x.toks) = false := by
    intro x
    rw [word, after_cons (by decide)]
    exact param_last x
  rw [after_append]
  cases p.first with
  | none => exact flat_last fun x _ => h x
  | some a =>
    dsimp only
    rw [param_last]
    exact flat_last fun x _ => h x

theorem params_ok {p : ParamsD} (h : KeysOk false p.toks) : ∀ x ∈ p.list, SaneParam x.tree := by
  unfold ParamsD.toks at h
  have hc : ∀ x : ParamD, after false (word .comma :: x.toks) = false := by
    intro x
    rw [word, after_cons (by decide)]
    exact param_last x
  intro x hx
  unfold ParamsD.list at hx
  have h2 := h.append.2
  have h1 := h.left
  cases hf : p.first with
  | none =>
    rw [hf] at hx h2
    exact param_ok ((flat_ok (fun x _ => hc x) h2 x hx).rest (by decide))
  | some a =>
    rw [hf] at hx h2 h1
    dsimp only at h1 h2
    rw [param_last] at h2
    rcases List.mem_append.1 hx with hx | hx
    · simp only [Option.toList_some, List.mem_singleton] at hx
      subst hx
      exact param_ok h1
    · exact param_ok ((flat_ok (fun x _ => hc x) h2 x hx).rest (by decide))

omit [Letters] in
theorem dir_last (d : Option Name) : after false (directiveToks d) = false := by
  cases d with
  | none => rfl
  | some n => exact after_last (a := []) (by decide)

theorem dir_ok {d : Option Name} (h : KeysOk false (directiveToks d)) : DirOk (d.getD []) := by
  cases d with
  | none => exact .inl rfl
  | some n => exact h.head.dir

omit [Letters] in
theorem export_last (b : Bool) : after false (exportToks b) = false := by
  cases b
  · rfl
  · exact after_last (a := []) (by decide)

omit [Letters] in
theorem func_kw (b : Bool) : (if b then Terminal.kFunction else .kProcedure) ≠ .dot := by cases b <;> decide

omit [Letters] in
theorem endFunc_kw (b : Bool) : (if b then Terminal.kEndFunction else .kEndProcedure) ≠ .dot := by cases b <;> decide

theorem func_ok {f : FuncD} (h : KeysOk false f.toks) : SaneFunc f.tree := by
  unfold FuncD.toks at h
  have h1 := h.right (func_kw f.isFunc)
  have h2 := (h1.rest (by decide)).rest (by decide)
  have h3 := (h2.right (by decide)).append.2
  rw [export_last] at h3
  have h4 := h3.append.2
  rw [flat_last fun n _ => after_last (a := word .kVar :: n.toks) (by decide)] at h4
  refine ⟨h1.head.name, dir_ok h.left, ?_, f.body.sane h4.left⟩
  intro p hp
  obtain ⟨x, hx, rfl⟩ := List.mem_map.1 (show p ∈ f.params.list.map ParamD.tree from hp)
  exact params_ok h2.left x hx

theorem vars_ok {v : VarsD} (h : KeysOk false v.toks) : ∀ g ∈ v.tree, NameOk false g.name ∧ DirOk g.directive := by
  unfold VarsD.toks at h
  intro g hg
  obtain ⟨n, hn, rfl⟩ := List.mem_map.1 (show g ∈ v.names.list.map _ from hg)
  exact ⟨names_ok (h.right (by decide)).left n hn, dir_ok h.left⟩

omit [Letters] in
theorem part_last (p : Part) : after false p.toks = false := by
  cases p with
  | vars v =>
    show after false v.toks = false
    unfold VarsD.toks
    rw [show directiveToks v.directive ++ word .kVar :: (v.names.toks ++ (exportToks v.export ++ [word .semi])) =
      (directiveToks v.directive ++ word .kVar :: (v.names.toks ++ exportToks v.export)) ++ [word .semi] by simp]
    exact after_last (by decide)
  | func f =>
    show after false f.toks = false
    unfold FuncD.toks
    rw [word, after_mid (func_kw _)]
    rw [ident, named, after_cons (by decide), word, after_cons (by decide), word, after_mid (by decide), after_append, export_last, after_append,
      flat_last fun n _ => after_last (a := word .kVar :: n.toks) (by decide)]
    exact after_last (endFunc_kw _)

/-- What a program with writable tokens declares. -/
structure SaneM (gs : List GVar) (fs : List FuncDecl) (l : List Stm) : Prop where
  vars : ∀ v ∈ gs, NameOk false v.name ∧ DirOk v.directive
  funcs : ∀ f ∈ fs, SaneFunc f
  body : ∀ s ∈ l, SaneS s

theorem Spec.Program.sane {P : Program} (h : KeysOk false P.toks) : SaneM P.globals (P.funcs.map FuncD.tree) P.body.tree := by
  unfold Program.toks at h
  have h1 := flat_ok (fun x _ => part_last x) h.left
  have h2 := h.append.2
  rw [flat_last fun x _ => part_last x] at h2
  refine ⟨?_, ?_, P.body.sane h2⟩
  · intro v hv
    obtain ⟨p, hp, hv⟩ := List.mem_flatMap.1 (show v ∈ P.parts.flatMap Part.globals from hv)
    cases p with
    | vars w => exact vars_ok (h1 _ hp) v hv
    | func f => cases hv
  · intro f hf
    obtain ⟨d, hd, rfl⟩ := List.mem_map.1 hf
    obtain ⟨p, hp, hd⟩ := List.mem_flatMap.1 (show d ∈ P.parts.flatMap Part.funcs from hd)
    cases p with
    | vars w => cases hd
    | func f =>
      obtain rfl := List.mem_singleton.1 (show d ∈ [f] from hd)
      exact func_ok (h1 _ hp)

end Verif
