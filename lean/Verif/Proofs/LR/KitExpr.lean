import Verif.Proofs.LR.Cpl
/-! Completeness: actions of the productions for expressions. -/
namespace Verif.LR
open Tables Spec Lexer

theorem key_named {x : Nat × Tok} {a : Terminal} {n : Name} (ha : a ∈ [Terminal.ktoken_identifier, .kGoToLabel, .kDirective, .kExecute])
    (h : key x = named a n) : x.2.literal = n := by
  have hk : x.1 = a.kind := by rw [← key_kind, h]; rfl
  rw [key, hk, if_pos (List.mem_map_of_mem ha)] at h
  exact congrArg Key.name h

theorem key_literal {x : Nat × Tok} {a : Terminal} {v : Val} (ha : a ∈ [Terminal.kNumber, .kString, .kDate, .kTrue, .kFalse])
    (h : key x = literal a v) : x.2.value = v := by
  have hk : x.1 = a.kind := by rw [← key_kind, h]; rfl
  rw [key, hk, if_neg, if_pos (List.mem_map_of_mem ha)] at h
  · exact congrArg Key.val h
  · simp only [List.mem_cons, List.not_mem_nil, or_false] at ha
    rcases ha with rfl | rfl | rfl | rfl | rfl <;> decide

theorem key_colon {x : Nat × Tok} (h : key x = word .colon) (hg : Good x) : x.2.literal = [':'] :=
  hg.colon (by rw [← key_kind, h]; rfl)

theorem key_semi {x : Nat × Tok} (h : key x = word .semi) (hg : Good x) : x.2.literal = [';'] :=
  hg.semi (by rw [← key_kind, h]; rfl)

theorem gives_named {a : Terminal} {n : Name} {σ σ' : St} {v : SV} (ha : a ∈ [Terminal.ktoken_identifier, .kGoToLabel, .kDirective, .kExecute])
    (h : Gives (.tok (named a n)) σ v σ') : σ' = σ ∧ v.token.literal = n := by
  obtain ⟨h1, x, h2, -, h3⟩ := h
  exact ⟨h1, by rw [h3]; exact key_named ha h2⟩

theorem gives_literal {a : Terminal} {w : Val} {σ σ' : St} {v : SV} (ha : a ∈ [Terminal.kNumber, .kString, .kDate, .kTrue, .kFalse])
    (h : Gives (.tok (literal a w)) σ v σ') : σ' = σ ∧ v.token.value = w := by
  obtain ⟨h1, x, h2, -, h3⟩ := h
  exact ⟨h1, by rw [h3]; exact key_literal ha h2⟩


theorem root_word (a : Terminal) : (Syn.tok (word a)).root = tnum a := tokNum_kind a
theorem root_named (a : Terminal) (n : Name) : (Syn.tok (named a n)).root = tnum a := tokNum_kind a
theorem root_ident (n : Name) : (Syn.tok (ident n)).root = 8 := root_named _ _
theorem root_literal (a : Terminal) (v : Val) : (Syn.tok (literal a v)).root = tnum a := tokNum_kind a

/-- Everything but the evaluation. -/
macro "kit" : tactic => `(tactic|
  refine ⟨by decide, by decide, by simp only [List.map_cons, List.map_nil, root_word, root_named, root_ident, root_literal]; rfl, rfl, by simp [Syn.toks, catL, Expr.toks, Simple.toks, New.toks, Path.toks, Ident.toks, Args.toks,
    OptExpr.toks, Source.toks, Spec.ident], rfl, ?_⟩)

set_option hygiene false in
/-- Evaluation of a right side whose parts do not change the state. -/
macro "pure0" : tactic => `(tactic| (
  intro σ _
  rintro junk a rfl
  refine ⟨_, _, rfl, rfl, rfl, ?_⟩))
set_option hygiene false in
macro "pure1" : tactic => `(tactic| (
  intro σ _
  refine ⟨trivial, fun v1 σ1 h1 => ?_⟩
  obtain ⟨rfl, h1⟩ := h1
  rintro junk a rfl
  refine ⟨_, _, rfl, rfl, rfl, ?_⟩))
set_option hygiene false in
macro "pure2" : tactic => `(tactic| (
  intro σ _
  refine ⟨trivial, fun v1 σ1 h1 => ⟨trivial, fun v2 σ2 h2 => ?_⟩⟩
  obtain ⟨rfl, h1⟩ := h1
  obtain ⟨rfl, h2⟩ := h2
  rintro junk a rfl
  refine ⟨_, _, rfl, rfl, rfl, ?_⟩))
set_option hygiene false in
macro "pure3" : tactic => `(tactic| (
  intro σ _
  refine ⟨trivial, fun v1 σ1 h1 => ⟨trivial, fun v2 σ2 h2 => ⟨trivial, fun v3 σ3 h3 => ?_⟩⟩⟩
  obtain ⟨rfl, h1⟩ := h1
  obtain ⟨rfl, h2⟩ := h2
  obtain ⟨rfl, h3⟩ := h3
  rintro junk a rfl
  refine ⟨_, _, rfl, rfl, rfl, ?_⟩))
set_option hygiene false in
macro "pure4" : tactic => `(tactic| (
  intro σ _
  refine ⟨trivial, fun v1 σ1 h1 => ⟨trivial, fun v2 σ2 h2 => ⟨trivial, fun v3 σ3 h3 => ⟨trivial, fun v4 σ4 h4 => ?_⟩⟩⟩⟩
  obtain ⟨rfl, h1⟩ := h1
  obtain ⟨rfl, h2⟩ := h2
  obtain ⟨rfl, h3⟩ := h3
  obtain ⟨rfl, h4⟩ := h4
  rintro junk a rfl
  refine ⟨_, _, rfl, rfl, rfl, ?_⟩))
set_option hygiene false in
macro "pure5" : tactic => `(tactic| (
  intro σ _
  refine ⟨trivial, fun v1 σ1 h1 => ⟨trivial, fun v2 σ2 h2 => ⟨trivial, fun v3 σ3 h3 => ⟨trivial, fun v4 σ4 h4 => ⟨trivial, fun v5 σ5 h5 => ?_⟩⟩⟩⟩⟩
  obtain ⟨rfl, h1⟩ := h1
  obtain ⟨rfl, h2⟩ := h2
  obtain ⟨rfl, h3⟩ := h3
  obtain ⟨rfl, h4⟩ := h4
  obtain ⟨rfl, h5⟩ := h5
  rintro junk a rfl
  refine ⟨_, _, rfl, rfl, rfl, ?_⟩))
set_option hygiene false in
macro "pure6" : tactic => `(tactic| (
  intro σ _
  refine ⟨trivial, fun v1 σ1 h1 => ⟨trivial, fun v2 σ2 h2 => ⟨trivial, fun v3 σ3 h3 => ⟨trivial, fun v4 σ4 h4 => ⟨trivial, fun v5 σ5 h5 => ⟨trivial, fun v6 σ6 h6 => ?_⟩⟩⟩⟩⟩⟩
  obtain ⟨rfl, h1⟩ := h1
  obtain ⟨rfl, h2⟩ := h2
  obtain ⟨rfl, h3⟩ := h3
  obtain ⟨rfl, h4⟩ := h4
  obtain ⟨rfl, h5⟩ := h5
  obtain ⟨rfl, h6⟩ := h6
  rintro junk a rfl
  refine ⟨_, _, rfl, rfl, rfl, ?_⟩))
set_option hygiene false in
macro "pure7" : tactic => `(tactic| (
  intro σ _
  refine ⟨trivial, fun v1 σ1 h1 => ⟨trivial, fun v2 σ2 h2 => ⟨trivial, fun v3 σ3 h3 => ⟨trivial, fun v4 σ4 h4 => ⟨trivial, fun v5 σ5 h5 => ⟨trivial, fun v6 σ6 h6 => ⟨trivial, fun v7 σ7 h7 => ?_⟩⟩⟩⟩⟩⟩⟩
  obtain ⟨rfl, h1⟩ := h1
  obtain ⟨rfl, h2⟩ := h2
  obtain ⟨rfl, h3⟩ := h3
  obtain ⟨rfl, h4⟩ := h4
  obtain ⟨rfl, h5⟩ := h5
  obtain ⟨rfl, h6⟩ := h6
  obtain ⟨rfl, h7⟩ := h7
  rintro junk a rfl
  refine ⟨_, _, rfl, rfl, rfl, ?_⟩))
set_option hygiene false in
macro "pure8" : tactic => `(tactic| (
  intro σ _
  refine ⟨trivial, fun v1 σ1 h1 => ⟨trivial, fun v2 σ2 h2 => ⟨trivial, fun v3 σ3 h3 => ⟨trivial, fun v4 σ4 h4 => ⟨trivial, fun v5 σ5 h5 => ⟨trivial, fun v6 σ6 h6 => ⟨trivial, fun v7 σ7 h7 => ⟨trivial, fun v8 σ8 h8 => ?_⟩⟩⟩⟩⟩⟩⟩⟩
  obtain ⟨rfl, h1⟩ := h1
  obtain ⟨rfl, h2⟩ := h2
  obtain ⟨rfl, h3⟩ := h3
  obtain ⟨rfl, h4⟩ := h4
  obtain ⟨rfl, h5⟩ := h5
  obtain ⟨rfl, h6⟩ := h6
  obtain ⟨rfl, h7⟩ := h7
  obtain ⟨rfl, h8⟩ := h8
  rintro junk a rfl
  refine ⟨_, _, rfl, rfl, rfl, ?_⟩))

theorem kit_33 (c x y : Expr) : Kit 33 [.tok (word .quest), .tok (word .lpar), .expr c, .comma, .expr x, .comma, .expr y, .tok (word .rpar)] (.ternary c x y) := by
  kit; pure8
  show Stm.ternary v3.stmt v5.stmt v7.stmt = _
  rw [h3, h5, h7]

theorem kit_40 (p : Path) : Kit 40 [.path p] (.source (.path p)) := by
  kit; pure1
  show v1.stmt = _
  rw [h1, Source.tree]

theorem kit_41 (p : New) : Kit 41 [.new p] (.source (.new p)) := by
  kit; pure1
  show v1.stmt = _
  rw [h1, Source.tree]

theorem kit_42 (p : New) : Kit 42 [.tok (word .lpar), .new p, .tok (word .rpar)] (.source (.parenNew p)) := by
  kit; pure3
  show v2.stmt = _
  rw [h2, Source.tree]

theorem kit_43 (c x y : Expr) : Kit 43 [.ternary c x y] (.source (.ternary c x y)) := by
  kit; pure1
  show v1.stmt = _
  rw [h1, Source.tree]

theorem kit_53 (i : Ident) : Kit 53 [.ident i] (.path (.one i)) := by
  kit; pure1
  show v1.stmt = _
  rw [h1, Path.tree]

theorem kit_54 (p : Path) (i : Ident) : Kit 54 [.path p, .dot, .ident i] (.path (.dot p i)) := by
  kit; pure3
  show Stm.chain v3.stmt v1.stmt false false = _
  rw [h1, h3, Path.tree]

theorem kit_55 (n : Name) : Kit 55 [.tok (ident n)] (.ident (.name n)) := by
  kit; pure1
  replace h1 := (gives_named (σ := view a) (a := .ktoken_identifier) (by decide) ⟨rfl, h1⟩).2
  show Stm.var v1.token.literal false false = _
  rw [h1, Ident.tree]

theorem kit_56 (n : Name) (e : Args) : Kit 56 [.tok (ident n), .tok (word .lpar), .args e, .tok (word .rpar)] (.ident (.call n e)) := by
  kit; pure4
  replace h1 := (gives_named (σ := view a) (a := .ktoken_identifier) (by decide) ⟨rfl, h1⟩).2
  show Stm.method v1.token.literal v3.exprs false = _
  rw [h1, h3, Ident.tree]

theorem kit_57 (i : Ident) (e : Expr) : Kit 57 [.ident i, .tok (word .lbr), .expr e, .tok (word .rbr)] (.ident (.index i e)) := by
  kit; pure4
  show Stm.item v3.stmt v1.stmt = _
  rw [h1, h3, Ident.tree]

theorem kit_58s (w : Name) (s : List Char) : Kit 58 [.tok (named .kExecute w), .execStr s] (.ident (.execStr w s)) := by
  kit; pure2
  replace h1 := (gives_named (σ := view a) (a := .kExecute) (by decide) ⟨rfl, h1⟩).2
  show Stm.method v1.token.literal [v2.stmt] false = _
  rw [h1, h2, Ident.tree]

theorem kit_58v (w n : Name) : Kit 58 [.tok (named .kExecute w), .execVar n] (.ident (.execVar w n)) := by
  kit; pure2
  replace h1 := (gives_named (σ := view a) (a := .kExecute) (by decide) ⟨rfl, h1⟩).2
  show Stm.method v1.token.literal [v2.stmt] false = _
  rw [h1, h2, Ident.tree]

theorem kit_59 (w : Name) (e : Expr) : Kit 59 [.tok (named .kExecute w), .tok (word .lpar), .expr e, .tok (word .rpar)] (.ident (.exec w e)) := by
  kit; pure4
  replace h1 := (gives_named (σ := view a) (a := .kExecute) (by decide) ⟨rfl, h1⟩).2
  show Stm.method v1.token.literal [v3.stmt] false = _
  rw [h1, h3, Ident.tree]

theorem kit_60 (s : List Char) : Kit 60 [.tok (literal .kString (.str s))] (.execStr s) := by
  kit; pure1
  replace h1 := (gives_literal (σ := view a) (a := .kString) (by decide) ⟨rfl, h1⟩).2
  show v1.token.value.toStm = _
  rw [h1, Val.toStm]

theorem kit_61 (n : Name) : Kit 61 [.tok (ident n)] (.execVar n) := by
  kit; pure1
  replace h1 := (gives_named (σ := view a) (a := .ktoken_identifier) (by decide) ⟨rfl, h1⟩).2
  show Stm.var v1.token.literal false false = _
  rw [h1]

theorem kit_64 (s : Simple) : Kit 64 [.simple s] (.expr (.simple s)) := by
  kit; pure1
  show v1.stmt = _
  rw [h1, Expr.tree]

theorem kit_65 (e : Args) : Kit 65 [.tok (word .lpar), .args e, .tok (word .rpar)] (.expr (.paren e)) := by
  kit; pure3
  show Stm.exprs v2.exprs false = _
  rw [h2, Expr.tree]

theorem kit_66 (x y : Expr) : Kit 66 [.expr x, .tok (word (opTerminal .plus)), .expr y] (.expr (.bin .plus x y)) := by
  kit; pure3
  show Stm.bin .plus v1.stmt v3.stmt false false = _
  rw [h1, h3, Expr.tree]

theorem kit_67 (x y : Expr) : Kit 67 [.expr x, .tok (word (opTerminal .minus)), .expr y] (.expr (.bin .minus x y)) := by
  kit; pure3
  show Stm.bin .minus v1.stmt v3.stmt false false = _
  rw [h1, h3, Expr.tree]

theorem kit_68 (x y : Expr) : Kit 68 [.expr x, .tok (word (opTerminal .mul)), .expr y] (.expr (.bin .mul x y)) := by
  kit; pure3
  show Stm.bin .mul v1.stmt v3.stmt false false = _
  rw [h1, h3, Expr.tree]

theorem kit_69 (x y : Expr) : Kit 69 [.expr x, .tok (word (opTerminal .div)), .expr y] (.expr (.bin .div x y)) := by
  kit; pure3
  show Stm.bin .div v1.stmt v3.stmt false false = _
  rw [h1, h3, Expr.tree]

theorem kit_70 (x y : Expr) : Kit 70 [.expr x, .tok (word (opTerminal .mod)), .expr y] (.expr (.bin .mod x y)) := by
  kit; pure3
  show Stm.bin .mod v1.stmt v3.stmt false false = _
  rw [h1, h3, Expr.tree]

theorem kit_71 (x y : Expr) : Kit 71 [.expr x, .tok (word (opTerminal .gt)), .expr y] (.expr (.bin .gt x y)) := by
  kit; pure3
  show Stm.bin .gt v1.stmt v3.stmt false false = _
  rw [h1, h3, Expr.tree]

theorem kit_72 (x y : Expr) : Kit 72 [.expr x, .tok (word (opTerminal .lt)), .expr y] (.expr (.bin .lt x y)) := by
  kit; pure3
  show Stm.bin .lt v1.stmt v3.stmt false false = _
  rw [h1, h3, Expr.tree]

theorem kit_73 (x y : Expr) : Kit 73 [.expr x, .tok (word (opTerminal .eq)), .expr y] (.expr (.bin .eq x y)) := by
  kit; pure3
  show Stm.bin .eq v1.stmt v3.stmt false false = _
  rw [h1, h3, Expr.tree]

theorem kit_74 (x y : Expr) : Kit 74 [.expr x, .tok (word (opTerminal .or)), .expr y] (.expr (.bin .or x y)) := by
  kit; pure3
  show Stm.bin .or v1.stmt v3.stmt false false = _
  rw [h1, h3, Expr.tree]

theorem kit_75 (x y : Expr) : Kit 75 [.expr x, .tok (word (opTerminal .and)), .expr y] (.expr (.bin .and x y)) := by
  kit; pure3
  show Stm.bin .and v1.stmt v3.stmt false false = _
  rw [h1, h3, Expr.tree]

theorem kit_76 (x y : Expr) : Kit 76 [.expr x, .tok (word (opTerminal .ne)), .expr y] (.expr (.bin .ne x y)) := by
  kit; pure3
  show Stm.bin .ne v1.stmt v3.stmt false false = _
  rw [h1, h3, Expr.tree]

theorem kit_77 (x y : Expr) : Kit 77 [.expr x, .tok (word (opTerminal .le)), .expr y] (.expr (.bin .le x y)) := by
  kit; pure3
  show Stm.bin .le v1.stmt v3.stmt false false = _
  rw [h1, h3, Expr.tree]

theorem kit_78 (x y : Expr) : Kit 78 [.expr x, .tok (word (opTerminal .ge)), .expr y] (.expr (.bin .ge x y)) := by
  kit; pure3
  show Stm.bin .ge v1.stmt v3.stmt false false = _
  rw [h1, h3, Expr.tree]

theorem kit_bin {p : Nat} {op : Op} (hp : (p, op) ∈ binProds) (x y : Expr) :
    Kit p [.expr x, .tok (word (opTerminal op)), .expr y] (.expr (.bin op x y)) := by
  simp only [binProds, List.mem_cons, List.not_mem_nil, or_false, Prod.mk.injEq] at hp
  rcases hp with ⟨rfl, rfl⟩ | ⟨rfl, rfl⟩ | ⟨rfl, rfl⟩ | ⟨rfl, rfl⟩ | ⟨rfl, rfl⟩ | ⟨rfl, rfl⟩ | ⟨rfl, rfl⟩ | ⟨rfl, rfl⟩ | ⟨rfl, rfl⟩ | ⟨rfl, rfl⟩ | ⟨rfl, rfl⟩ | ⟨rfl, rfl⟩ | ⟨rfl, rfl⟩
  · exact kit_66 x y
  · exact kit_67 x y
  · exact kit_68 x y
  · exact kit_69 x y
  · exact kit_70 x y
  · exact kit_71 x y
  · exact kit_72 x y
  · exact kit_73 x y
  · exact kit_74 x y
  · exact kit_75 x y
  · exact kit_76 x y
  · exact kit_77 x y
  · exact kit_78 x y

theorem kit_79 (e : Expr) : Kit 79 [.tok (word .kNot), .expr e] (.expr (.not e)) := by
  kit; pure2
  show notStm v2.stmt = _
  rw [withNot_eq, h2, Expr.tree]

theorem kit_80 (n : New) : Kit 80 [.new n] (.expr (.new n)) := by
  kit; pure1
  show v1.stmt = _
  rw [h1, Expr.tree]

theorem kit_81 (n : Name) : Kit 81 [.tok (word .kGoTo), .label n] (.expr (.goto n)) := by
  kit; pure2
  show mkGoto v2.goToLabel = _
  rw [h2, Expr.tree, mkGoto]

theorem kit_82 (c x y : Expr) : Kit 82 [.ternary c x y] (.expr (.ternary c x y)) := by
  kit; pure1
  show v1.stmt = _
  rw [h1, Expr.tree]

theorem kit_83 (p : Path) : Kit 83 [.path p] (.expr (.path p)) := by
  kit; pure1
  show v1.stmt = _
  rw [h1, Expr.tree]

theorem kit_84  : Kit 84 [] (.optExpr .none) := by
  kit; pure0
  show Stm.nil = _
  rw [OptExpr.tree]

theorem kit_85 (e : Expr) : Kit 85 [.expr e] (.optExpr (.some e)) := by
  kit; pure1
  show v1.stmt = _
  rw [h1, OptExpr.tree]

theorem kit_86 (o : OptExpr) : Kit 86 [.optExpr o] (.args (.one o)) := by
  kit; pure1
  show [v1.stmt] = _
  rw [h1, Args.tree]

theorem kit_87 (e : Args) (o : OptExpr) : Kit 87 [.args e, .comma, .optExpr o] (.args (.more e o)) := by
  kit; pure3
  show v1.exprs ++ [v3.stmt] = _
  rw [h1, h3, Args.tree]

theorem kit_88 (s : List Char) : Kit 88 [.tok (literal .kString (.str s))] (.simple (.str s)) := by
  kit; pure1
  replace h1 := (gives_literal (σ := view a) (a := .kString) (by decide) ⟨rfl, h1⟩).2
  show v1.token.value.toStm = _
  rw [h1, Val.toStm, Simple.tree]

theorem kit_89 (x : F64) : Kit 89 [.tok (literal .kNumber (.num x))] (.simple (.num x)) := by
  kit; pure1
  replace h1 := (gives_literal (σ := view a) (a := .kNumber) (by decide) ⟨rfl, h1⟩).2
  show v1.token.value.toStm = _
  rw [h1, Val.toStm, Simple.tree]

theorem kit_90 (e : Expr) : Kit 90 [.tok (word .minus), .expr e] (.simple (.neg e)) := by
  kit; pure2
  show unaryMinus v2.stmt = _
  rw [withMinus_eq, h2, Simple.tree]

theorem kit_91 (e : Expr) : Kit 91 [.tok (word .plus), .expr e] (.simple (.pos e)) := by
  kit; pure2
  show v2.stmt = _
  rw [h2, Simple.tree]

theorem kit_92  : Kit 92 [.tok (literal .kTrue (.bool true))] (.simple (.bool true)) := by
  kit; pure1
  replace h1 := (gives_literal (σ := view a) (a := .kTrue) (by decide) ⟨rfl, h1⟩).2
  show v1.token.value.toStm = _
  rw [h1, Val.toStm, Simple.tree]

theorem kit_93  : Kit 93 [.tok (literal .kFalse (.bool false))] (.simple (.bool false)) := by
  kit; pure1
  replace h1 := (gives_literal (σ := view a) (a := .kFalse) (by decide) ⟨rfl, h1⟩).2
  show v1.token.value.toStm = _
  rw [h1, Val.toStm, Simple.tree]

theorem kit_94 (t : Time) : Kit 94 [.tok (literal .kDate (.date t))] (.simple (.date t)) := by
  kit; pure1
  replace h1 := (gives_literal (σ := view a) (a := .kDate) (by decide) ⟨rfl, h1⟩).2
  show v1.token.value.toStm = _
  rw [h1, Val.toStm, Simple.tree]

theorem kit_95  : Kit 95 [.tok (word .kUndefind)] (.simple .undef) := by
  kit; pure1
  show Stm.undef = _
  rw [Simple.tree]

theorem kit_96 (n : Name) : Kit 96 [.label n] (.simple (.label n)) := by
  kit; pure1
  show v1.goToLabel = _
  rw [h1, Simple.tree]

theorem kit_103 (n : Name) : Kit 103 [.tok (word .kNew), .tok (ident n)] (.new (.name n)) := by
  kit; pure2
  replace h2 := (gives_named (σ := view a) (a := .ktoken_identifier) (by decide) ⟨rfl, h2⟩).2
  show Stm.new v2.token.literal [] = _
  rw [h2, New.tree]

theorem kit_104 (n : Name) (e : Args) : Kit 104 [.tok (word .kNew), .tok (ident n), .tok (word .lpar), .args e, .tok (word .rpar)] (.new (.call n e)) := by
  kit; pure5
  replace h2 := (gives_named (σ := view a) (a := .ktoken_identifier) (by decide) ⟨rfl, h2⟩).2
  show Stm.new v2.token.literal v4.exprs = _
  rw [h2, h4, New.tree]

theorem kit_105 (e : Args) : Kit 105 [.tok (word .kNew), .tok (word .lpar), .args e, .tok (word .rpar)] (.new (.args e)) := by
  kit; pure4
  show Stm.new [] v3.exprs = _
  rw [h3, New.tree]

theorem kit_106 (n : Name) : Kit 106 [.tok (named .kGoToLabel n)] (.label n) := by
  kit; pure1
  replace h1 := (gives_named (σ := view a) (a := .kGoToLabel) (by decide) ⟨rfl, h1⟩).2
  show Stm.label v1.token.literal = _
  rw [h1]

theorem kit_111  : Kit 111 [.tok (word .comma)] (.comma) := by
  kit; pure1
  trivial

theorem kit_112  : Kit 112 [.tok (word .dot)] (.dot) := by
  kit; pure1
  trivial

end Verif.LR
