import Verif.Json
import Verif.Spec.Json
/-!
# Reading JSON back
-/
namespace Verif
open Spec

abbrev Fields := List (List Char × J)

def Fields.has (fs : Fields) (k : String) : Bool := (fs.lookup k.toList).isSome

/-- The text of a JSON string. -/
def J.text : J → List Char
  | .str s => s
  | _ => []

/-- The value of a field. -/
def Fields.get (fs : Fields) (k : String) : J := (fs.lookup k.toList).getD .null

def Op.ofNum : Nat → Op
  | 1 => .plus | 2 => .minus | 3 => .mul | 4 => .div | 5 => .eq | 6 => .gt | 7 => .lt | 8 => .ne
  | 9 => .le | 10 => .ge | 11 => .mod | 12 => .or | _ => .and

theorem Op.ofNum_num (o : Op) : Op.ofNum o.num = o := by cases o <;> rfl

def J.nat : J → Nat
  | .int n => n
  | _ => 0

def J.elems : J → List J
  | .arr l => l
  | _ => []

def J.fields : J → Fields
  | .obj l => l
  | _ => []

/-- What is left of a statement, from its JSON. -/
def unJ : Nat → J → Stm
  | 0, _ => .nil
  | n + 1, j =>
    match j with
    | .null => .nil
    | .flt x => .num x
    | .int _ => .nil
    | .str s => .str s
    | .bool b => .bool b
    | .arr _ => .nil
    | .obj fs =>
      if Fields.has fs "Unit" then .chain (unJ n (Fields.get fs "Unit")) (unJ n (Fields.get fs "Call")) false false
      else if Fields.has fs "Constructor" then
        .new (Fields.get fs "Constructor").text ((Fields.get (Fields.get fs "Param").fields "Statements").elems.map (unJ n))
      else if Fields.has fs "Item" then .item (unJ n (Fields.get fs "Item")) (unJ n (Fields.get fs "Object"))
      else if Fields.has fs "Var" then
        .assign (unJ n (Fields.get fs "Var")) ((Fields.get (Fields.get fs "Expr").fields "Statements").elems.map (unJ n))
      else if Fields.has fs "Operation" then
        .bin (Op.ofNum (Fields.get fs "Operation").nat) (unJ n (Fields.get fs "Left")) (unJ n (Fields.get fs "Right")) false false
      else if Fields.has fs "IfElseBlock" then
        .ifS (unJ n (Fields.get fs "Expression")) ((Fields.get fs "TrueBlock").elems.map (unJ n))
          ((Fields.get fs "IfElseBlock").elems.map (unJ n)) ((Fields.get fs "ElseBlock").elems.map (unJ n))
      else if Fields.has fs "Expression" then
        .ternary (unJ n (Fields.get fs "Expression")) (unJ n (Fields.get fs "TrueBlock")) (unJ n (Fields.get fs "ElseBlock"))
      else if Fields.has fs "Catch" then
        .tryS ((Fields.get fs "Body").elems.map (unJ n)) ((Fields.get fs "Catch").elems.map (unJ n))
      else if Fields.has fs "Body" then
        .loop (unJ n (Fields.get fs "For")) (unJ n (Fields.get fs "To")) (unJ n (Fields.get fs "In")) (unJ n (Fields.get fs "WhileExpr"))
          ((Fields.get fs "Body").elems.map (unJ n))
      else if Fields.has fs "Label" then .goto (Fields.get (Fields.get fs "Label").fields "Name").text
      else if Fields.has fs "Statements" then .exprs ((Fields.get fs "Statements").elems.map (unJ n)) false
      else if Fields.has fs "Name" then
        if Fields.has fs "Param" then
          .method (Fields.get fs "Name").text ((Fields.get (Fields.get fs "Param").fields "Statements").elems.map (unJ n)) false
        else .var (Fields.get fs "Name").text false false
      else if Fields.has fs "Param" then .ret (unJ n (Fields.get fs "Param"))
      else .undef

theorem elems_slice (l : List J) : (jSlice l).elems = l := by cases l <;> rfl

theorem jTime_eq (t : Time) : jTime t = .str (rfc3339 t) := rfl

mutual
/-- Depth of a statement. -/
def depth : Stm → Nat
  | .chain u c _ _ => depth u + depth c + 1
  | .method _ ps _ => depthL ps + 1
  | .item i o => depth i + depth o + 1
  | .ternary c t e => depth c + depth t + depth e + 1
  | .new _ ps => depthL ps + 1
  | .assign v l => depth v + depthL l + 1
  | .bin _ l r _ _ => depth l + depth r + 1
  | .exprs l _ => depthL l + 1
  | .ifS c tb elifs els => depth c + depthL tb + depthL elifs + depthL els + 1
  | .tryS b c => depthL b + depthL c + 1
  | .throw p => depth p + 1
  | .ret p => depth p + 1
  | .loop f t i w body => depth f + depth t + depth i + depth w + depthL body + 1
  | _ => 1
def depthL : List Stm → Nat
  | [] => 0
  | s :: l => depth s + depthL l
end

theorem depth_pos (s : Stm) : 1 ≤ depth s := by
  cases s <;> simp only [depth] <;> omega

theorem fldOpt_cases (n : String) (s : Stm) :
    (fldOpt n s (jStm s) = [] ∧ jStm s = .null) ∨ fldOpt n s (jStm s) = [fld n (jStm s)] := by
  cases s <;> first | exact .inr rfl | exact .inl ⟨rfl, rfl⟩

def loopFields (f t i w : Stm) (jb : J) : Fields :=
  fldOpt "For" f (jStm f) ++ fldOpt "To" t (jStm t) ++ fldOpt "In" i (jStm i) ++ fldOpt "WhileExpr" w (jStm w) ++ [fld "Body" jb]

/-- Optional fields of a loop. -/
theorem loop_fields (f t i w : Stm) (jb : J) :
    (∀ k ∈ ["Unit", "Constructor", "Item", "Var", "Operation", "IfElseBlock", "Expression", "Catch"], (loopFields f t i w jb).has k = false) ∧
    (loopFields f t i w jb).has "Body" = true ∧ (loopFields f t i w jb).get "Body" = jb ∧
    (loopFields f t i w jb).get "For" = jStm f ∧ (loopFields f t i w jb).get "To" = jStm t ∧
    (loopFields f t i w jb).get "In" = jStm i ∧ (loopFields f t i w jb).get "WhileExpr" = jStm w := by
  unfold loopFields
  rcases fldOpt_cases "For" f with ⟨h1, h1'⟩ | h1 <;> rcases fldOpt_cases "To" t with ⟨h2, h2'⟩ | h2 <;>
    rcases fldOpt_cases "In" i with ⟨h3, h3'⟩ | h3 <;> rcases fldOpt_cases "WhileExpr" w with ⟨h4, h4'⟩ | h4 <;>
    rw [h1, h2, h3, h4] <;> simp only [*, List.mem_cons, List.not_mem_nil, or_false, forall_eq_or_imp, forall_eq] <;>
    exact ⟨⟨rfl, rfl, rfl, rfl, rfl, rfl, rfl, rfl⟩, rfl, rfl, rfl, rfl, rfl, rfl⟩

mutual
theorem unJ_jStm : ∀ (s : Stm) (n : Nat), depth s ≤ n → unJ n (jStm s) = plain s
  | s, 0, h => absurd h (by have := depth_pos s; omega)
  | .nil, _ + 1, _ | .num _, _ + 1, _ | .str _, _ + 1, _ | .bool _, _ + 1, _ | .date _, _ + 1, _ | .undef, _ + 1, _
  | .var _ _ _, _ + 1, _ | .brk, _ + 1, _ | .cont, _ + 1, _ | .goto _, _ + 1, _ | .label _, _ + 1, _ => rfl
  | .chain u c _ _, n + 1, h => by
    simp only [depth] at h
    rw [plain, ← unJ_jStm u n (by omega), ← unJ_jStm c n (by omega)]
    rfl
  | .method m ps _, n + 1, h => by
    simp only [depth] at h
    rw [plain, ← unJ_jL ps n (by omega)]
    show Stm.method m (List.map (unJ n) (jSlice (jL ps)).elems) false = _
    rw [elems_slice]
  | .item i o, n + 1, h => by
    simp only [depth] at h
    rw [plain, ← unJ_jStm i n (by omega), ← unJ_jStm o n (by omega)]
    rfl
  | .ternary c t e, n + 1, h => by
    simp only [depth] at h
    rw [plain, ← unJ_jStm c n (by omega), ← unJ_jStm t n (by omega), ← unJ_jStm e n (by omega)]
    rfl
  | .new c ps, n + 1, h => by
    simp only [depth] at h
    rw [plain, ← unJ_jL ps n (by omega)]
    show Stm.new c (List.map (unJ n) (jSlice (jL ps)).elems) = _
    rw [elems_slice]
  | .assign v l, n + 1, h => by
    simp only [depth] at h
    rw [plain, ← unJ_jL l n (by omega), ← unJ_jStm v n (by omega)]
    show Stm.assign (unJ n (jStm v)) (List.map (unJ n) (jSlice (jL l)).elems) = _
    rw [elems_slice]
  | .bin op a b _ _, n + 1, h => by
    simp only [depth] at h
    rw [plain, ← unJ_jStm a n (by omega), ← unJ_jStm b n (by omega)]
    show Stm.bin (Op.ofNum op.num) _ _ false false = _
    rw [Op.ofNum_num]
    rfl
  | .exprs l _, n + 1, h => by
    simp only [depth] at h
    rw [plain, ← unJ_jL l n (by omega)]
    show Stm.exprs (List.map (unJ n) (jSlice (jL l)).elems) false = _
    rw [elems_slice]
  | .ifS c tb elifs els, n + 1, h => by
    simp only [depth] at h
    rw [plain, ← unJ_jL tb n (by omega), ← unJ_jL els n (by omega), ← unJ_jElifs elifs n (by omega), ← unJ_jStm c n (by omega)]
    show Stm.ifS (unJ n (jStm c)) (List.map (unJ n) (jSlice (jL tb)).elems) (List.map (unJ n) (J.arr (jElifs elifs)).elems)
      (List.map (unJ n) (jSlice (jL els)).elems) = _
    rw [elems_slice, elems_slice]
    rfl
  | .tryS b c, n + 1, h => by
    simp only [depth] at h
    rw [plain, ← unJ_jL b n (by omega), ← unJ_jL c n (by omega)]
    show Stm.tryS (List.map (unJ n) (jSlice (jL b)).elems) (List.map (unJ n) (jSlice (jL c)).elems) = _
    rw [elems_slice, elems_slice]
  | .throw p, n + 1, h => by
    simp only [depth] at h
    rw [plain, ← unJ_jStm p n (by omega)]
    rfl
  | .ret p, n + 1, h => by
    simp only [depth] at h
    rw [plain, ← unJ_jStm p n (by omega)]
    rfl
  | .loop f t i w b, n + 1, h => by
    simp only [depth] at h
    rw [plain, ← unJ_jL b n (by omega), ← unJ_jStm f n (by omega), ← unJ_jStm t n (by omega), ← unJ_jStm i n (by omega),
      ← unJ_jStm w n (by omega)]
    obtain ⟨h1, h2, h3, h4, h5, h6, h7⟩ := loop_fields f t i w (jSlice (jL b))
    simp only [List.mem_cons, List.not_mem_nil, or_false, forall_eq_or_imp, forall_eq] at h1
    show unJ (n + 1) (.obj (loopFields f t i w (jSlice (jL b)))) = _
    simp only [unJ, h1, h2, h3, h4, h5, h6, h7, elems_slice]
    simp
theorem unJ_jL : ∀ (l : List Stm) (n : Nat), depthL l ≤ n → (jL l).map (unJ n) = plainL l
  | [], _, _ => rfl
  | s :: l, n, h => by
    simp only [depthL] at h
    rw [jL, List.map_cons, unJ_jStm s n (by omega), unJ_jL l n (by omega), plainL]
theorem unJ_jElifs : ∀ (l : List Stm) (n : Nat), depthL l ≤ n → (jElifs l).map (unJ n) = plainElifs l
  | [], _, _ => rfl
  | s :: l, n, h => by
    simp only [depthL] at h
    have hl := unJ_jElifs l n (by omega)
    have hp := depth_pos s
    obtain ⟨n, rfl⟩ : ∃ k, n = k + 1 := ⟨n - 1, by omega⟩
    cases s with
    | ifS c tb _ _ =>
      simp only [depth] at h
      rw [jElifs, List.map_cons, hl, plainElifs, ← unJ_jL tb n (by omega), ← unJ_jStm c n (by omega)]
      congr 1
      show Stm.ifS (unJ n (jStm c)) (List.map (unJ n) (jSlice (jL tb)).elems) [] [] = _
      rw [elems_slice]
    | _ => simp only [jElifs, List.map_cons, hl, plainElifs]; rfl
end

/-- Equal JSON: equal up to what is lost. -/
theorem jStm_plain {s t : Stm} (h : jStm s = jStm t) : plain s = plain t := by
  rw [← unJ_jStm s (depth s + depth t) (by omega), ← unJ_jStm t (depth s + depth t) (by omega), h]

theorem jL_plain {l l' : List Stm} (h : jL l = jL l') : plainL l = plainL l' := by
  rw [← unJ_jL l (depthL l + depthL l') (by omega), ← unJ_jL l' (depthL l + depthL l') (by omega), h]

theorem plain_nil {s : Stm} : plain s = .nil ↔ s = .nil := by cases s <;> simp [plain]

mutual
/-- What is lost is lost. -/
theorem jStm_of_plain : ∀ s : Stm, jStm (plain s) = jStm s
  | .nil | .num _ | .str _ | .bool _ | .date _ | .undef | .var _ _ _ | .brk | .cont | .goto _ | .label _ => rfl
  | .chain u c _ _ => by simp only [plain, jStm, jStm_of_plain u, jStm_of_plain c]
  | .method m ps _ => by simp only [plain, jStm, jL_of_plain ps]
  | .item i o => by simp only [plain, jStm, jStm_of_plain i, jStm_of_plain o]
  | .ternary c t e => by simp only [plain, jStm, jStm_of_plain c, jStm_of_plain t, jStm_of_plain e]
  | .new c ps => by simp only [plain, jStm, jL_of_plain ps]
  | .assign v l => by simp only [plain, jStm, jL_of_plain l, jStm_of_plain v]
  | .bin op a b _ _ => by simp only [plain, jStm, jStm_of_plain a, jStm_of_plain b]
  | .exprs l _ => by simp only [plain, jStm, jL_of_plain l]
  | .ifS c tb elifs els => by
    simp only [plain, jStm, jStm_of_plain c, jL_of_plain tb, jL_of_plain els, jElifs_of_plain elifs]
  | .tryS b c => by simp only [plain, jStm, jL_of_plain b, jL_of_plain c]
  | .throw p => by simp only [plain, jStm, jStm_of_plain p]
  | .ret p => by simp only [plain, jStm, jStm_of_plain p]
  | .loop f t i w b => by
    have key : ∀ (n : String) (s : Stm) (j : J), fldOpt n (plain s) j = fldOpt n s j := by
      intro n s j; cases s <;> rfl
    simp only [plain, jStm, jL_of_plain b, jStm_of_plain f, jStm_of_plain t, jStm_of_plain i, jStm_of_plain w, key]
theorem jL_of_plain : ∀ l : List Stm, jL (plainL l) = jL l
  | [] => rfl
  | s :: l => by simp only [plainL, jL, jStm_of_plain s, jL_of_plain l]
theorem jElifs_of_plain : ∀ l : List Stm, jElifs (plainElifs l) = jElifs l
  | [] => rfl
  | s :: l => by
    have hl := jElifs_of_plain l
    cases s with
    | ifS c tb _ _ => simp only [plainElifs, jElifs, hl, jStm_of_plain c, jL_of_plain tb]
    | _ => simp only [plainElifs, jElifs, hl]
end

theorem jStm_iff (s t : Stm) : jStm s = jStm t ↔ plain s = plain t :=
  ⟨jStm_plain, fun h => by rw [← jStm_of_plain s, ← jStm_of_plain t, h]⟩

theorem jL_iff (s t : List Stm) : jL s = jL t ↔ plainL s = plainL t :=
  ⟨jL_plain, fun h => by rw [← jL_of_plain s, ← jL_of_plain t, h]⟩

theorem keyLe_iff (a b : List Char × J) : keyLe a b = true ↔ a.1.map Char.toNat ≤ b.1.map Char.toNat := decide_eq_true_iff

theorem keyLe_antisymm {a b : List Char × J} (h : keyLe a b = true) (h' : keyLe b a = true) : a.1 = b.1 :=
  (List.map_inj_right fun _ _ e => Char.toNat_inj.1 e).1 (List.le_antisymm ((keyLe_iff a b).1 h) ((keyLe_iff b a).1 h'))

theorem jMap_sorted (l : List (List Char × J)) : (l.mergeSort keyLe).Pairwise (fun a b => keyLe a b = true) :=
  List.pairwise_mergeSort (fun a b c h h' => (keyLe_iff a c).2 (List.le_trans ((keyLe_iff a b).1 h) ((keyLe_iff b c).1 h')))
    (fun a b => by rw [Bool.or_eq_true, keyLe_iff, keyLe_iff]; exact List.le_total _ _) l

end Verif
