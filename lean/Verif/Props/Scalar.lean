import Verif.Spec.Scalar
import Verif.Props.Rounding
/-!
# C72: operations on numbers are those of the number type
-/

set_option linter.unusedSectionVars false

namespace MUL
open Out Spec FArith

section
variable {F : Type} [FNum F] [UTable]

/-- **C72.** A built-in function, applied to numbers, is the function of the number type, also outside of its domain. -/
theorem C72_function (cfg : Cfg) (name : Str) (op : SimpleOp) (hb : (name, op) ∈ builtins) (g : F → F) (hg : numFn op = some g) (e : Ex) (hwf : e.WF)
    (ctx : Context F) (xs : List F) (he : Finishes (fun n => eval cfg n (e.tree cfg) ctx) (.ok (xs.map .scalar))) :
    Finishes (fun n => quickEval cfg n (Ex.fn name op e).text ctx) (.ok (xs.map fun a => .scalar (g a))) := by
  refine ((C29_eval cfg _ ctx (C09_parse_text (F := F) cfg _ (show (Ex.fn name op e).WF from ⟨hb, hwf⟩))).1 _).1 ?_
  have := C19_results (op := op) he (scalar_rec cfg ctx [] (ofInt 0)) (fun p => match p.1 with | .scalar a => [.scalar (g a)] | _ => []) (by
    intro p hp
    obtain ⟨v, hv, w, hw, rfl⟩ : ∃ v ∈ xs.map (Value.scalar : F → Value F), ∃ w ∈ [Value.scalar (ofInt 0 : F)], (v, w) = p := by simpa [pairs, eq_comm] using hp
    obtain ⟨a, _, rfl⟩ := List.mem_map.1 hv
    cases op <;> simp only [numFn, Option.some.injEq, reduceCtorEq] at hg <;> subst hg <;> try rfl
    simp only [opTable, vAbs]
    split <;> rfl)
  simpa [eval, Ex.tree, pairs, List.flatMap_map, ← List.map_eq_flatMap] using this

/-- **C72.** An operator, applied to numbers, for all combinations of the values of the operands. -/
theorem C72_operator (cfg : Cfg) (op : BinOp) (g : F → F → List F) (hg : numOp op = some g) (l r : Ex) (hwf : (Ex.bin op l r).WF)
    (ctx : Context F) (xs ys : List F) (hl : Finishes (fun n => eval cfg n (l.tree cfg) ctx) (.ok (xs.map .scalar)))
    (hr : Finishes (fun n => eval cfg n (r.tree cfg) ctx) (.ok (ys.map .scalar))) :
    Finishes (fun n => quickEval cfg n (Ex.bin op l r).text ctx) (.ok ((xs.flatMap fun a => ys.flatMap fun b => g a b).map .scalar)) := by
  refine ((C29_eval cfg _ ctx (C09_parse_text (F := F) cfg _ hwf)).1 _).1 ?_
  have := C19_results (op := op.op) hl hr (fun p => match p.1, p.2 with | .scalar a, .scalar b => (g a b).map .scalar | _, _ => []) (by
    intro p hp
    obtain ⟨v, hv, w, hw, rfl⟩ : ∃ v ∈ xs.map (Value.scalar : F → Value F), ∃ w ∈ ys.map (Value.scalar : F → Value F), (v, w) = p := by
      simpa [pairs] using hp
    obtain ⟨a, _, rfl⟩ := List.mem_map.1 hv
    obtain ⟨b, _, rfl⟩ := List.mem_map.1 hw
    cases op <;> simp only [numOp, Option.some.injEq, reduceCtorEq] at hg <;> subst hg <;> rfl)
  simpa [eval, Ex.tree, pairs, List.flatMap_map, List.map_flatMap, List.flatMap_assoc] using this

/-- **C72.** `root(a,b)` is `a^(1/b)`. -/
theorem C72_root (cfg : Cfg) (l r : Ex) (hl' : l.WF) (hr' : r.WF) (ctx : Context F) (xs ys : List F)
    (hl : Finishes (fun n => eval cfg n (l.tree cfg) ctx) (.ok (xs.map .scalar)))
    (hr : Finishes (fun n => eval cfg n (r.tree cfg) ctx) (.ok (ys.map .scalar))) :
    Finishes (fun n => quickEval cfg n (Ex.root l r).text ctx)
      (.ok ((xs.flatMap fun a => ys.map fun b => FElem.powf a (div (ofInt 1) b)).map .scalar)) := by
  refine ((C29_eval cfg _ ctx (C09_parse_text (F := F) cfg _ (show (Ex.root l r).WF from ⟨hl', hr'⟩))).1 _).1 ?_
  have := C19_results (op := .root) hl hr
    (fun p => match p.1, p.2 with | .scalar a, .scalar b => [.scalar (FElem.powf a (div (ofInt 1) b))] | _, _ => []) (by
    intro p hp
    obtain ⟨v, hv, w, hw, rfl⟩ : ∃ v ∈ xs.map (Value.scalar : F → Value F), ∃ w ∈ ys.map (Value.scalar : F → Value F), (v, w) = p := by
      simpa [pairs] using hp
    obtain ⟨a, _, rfl⟩ := List.mem_map.1 hv
    obtain ⟨b, _, rfl⟩ := List.mem_map.1 hw
    rfl)
  simpa [eval, Ex.tree, pairs, List.flatMap_map, List.map_flatMap, List.flatMap_assoc, ← List.map_eq_flatMap, Function.comp_def] using this

/-- **C72.** `-a` is `-1 * a`. -/
theorem C72_negation (cfg : Cfg) (e : Ex) (hwf : (Ex.neg e).WF) (ctx : Context F) (xs : List F)
    (he : Finishes (fun n => eval cfg n (e.tree cfg) ctx) (.ok (xs.map .scalar))) :
    Finishes (fun n => quickEval cfg n (Ex.neg e).text ctx) (.ok (xs.map fun a => .scalar (mul (ofInt (-1)) a))) := by
  refine ((C29_eval cfg _ ctx (C09_parse_text (F := F) cfg _ hwf)).1 _).1 ?_
  have := C19_results (op := .neg) (scalar_rec cfg ctx [] (ofInt 0)) he
    (fun p => match p.2 with | .scalar a => [.scalar (mul (ofInt (-1)) a)] | _ => []) (by
    intro p hp
    obtain ⟨w, hw, v, hv, rfl⟩ : ∃ w ∈ [Value.scalar (ofInt 0 : F)], ∃ v ∈ xs.map (Value.scalar : F → Value F), (w, v) = p := by simpa [pairs] using hp
    obtain ⟨a, _, rfl⟩ := List.mem_map.1 hv
    rfl)
  simpa [eval, Ex.tree, pairs, List.flatMap_map, ← List.map_eq_flatMap] using this

end

section
variable {F : Type} [FNum F] [Binary64 F]

omit [FNum F] in
theorem _root_.MUL.F64.rnd_representable {y : ℚ} (h : Representable y) : F64.rnd (.fin y) = ⟨.fin y⟩ := by
  by_cases h0 : y = 0
  · subst h0
    rfl
  · have h1 : (F64.rnd (.fin y)).ext.value = some (F64.fl y) := Binary64.val_rnd rfl (rep_lt_limit h)
    rw [F64.fl_representable h] at h1
    generalize F64.rnd (.fin y) = r at h1
    obtain ⟨r⟩ := r
    cases r <;> simp_all [Ext.value]

theorem ext_mul_neg_one (b : Ext ℚ) : Ext.mul b (.fin (-1)) = Ext.neg b := by
  cases b with
  | fin x =>
    by_cases h : x = 0
    · subst h; decide +kernel
    · simp [Ext.mul, Ext.neg, Ext.mk, Ext.value, h]
  | negZero => decide +kernel
  | inf s => cases s <;> decide +kernel
  | nan => rfl

theorem ext_neg_one_mul (b : Ext ℚ) : Ext.mul (.fin (-1)) b = Ext.neg b := by
  cases b with
  | fin x =>
    by_cases h : x = 0
    · subst h; decide +kernel
    · simp [Ext.mul, Ext.neg, Ext.mk, Ext.value, h]
  | negZero => decide +kernel
  | inf s => cases s <;> decide +kernel
  | nan => rfl

theorem neg_one_f64 : (ofInt (-1) : F64) = ⟨.fin (-1)⟩ := F64.rnd_representable (by
  have := representable_int (n := -1) (by norm_num)
  simpa using this)

theorem rnd_neg (b : F) : F64.rnd (Ext.neg (Binary64.bits b).ext) = ⟨Ext.neg (Binary64.bits b).ext⟩ := by
  have hrep := Binary64.representable b
  generalize (Binary64.bits b).ext = e at *
  cases e with
  | fin x =>
    by_cases h : x = 0
    · subst h; decide +kernel
    · have := F64.rnd_representable (representable_neg (hrep x rfl))
      simpa [Ext.neg, Ext.mk, h] using this
  | negZero => decide +kernel
  | inf s => cases s <;> rfl
  | nan => rfl

/-- **C72.** In binary64, `-a` is the negated number, also for zeros, infinities and NaN. -/
theorem C72_negated (b : F) : mul (ofInt (-1)) b = neg b ∧ mul b (ofInt (-1)) = neg b := by
  constructor <;> apply Binary64.bits_inj <;> rw [Binary64.bits_mul, Binary64.bits_ofInt, Binary64.bits_neg, neg_one_f64]
  · show F64.rnd (Ext.mul (.fin (-1)) (Binary64.bits b).ext) = ⟨Ext.neg (Binary64.bits b).ext⟩
    rw [ext_neg_one_mul, rnd_neg]
  · show F64.rnd (Ext.mul (Binary64.bits b).ext (.fin (-1))) = ⟨Ext.neg (Binary64.bits b).ext⟩
    rw [ext_mul_neg_one, rnd_neg]

/-- **C72.** In binary64, `a-b` is the difference. -/
theorem C72_difference (a b : F) : add a (mul b (ofInt (-1))) = sub a b := by
  rw [(C72_negated b).2]
  apply Binary64.bits_inj
  rw [Binary64.bits_add, Binary64.bits_sub, Binary64.bits_neg]
  rfl

end

/-! ## Examples -/

/-- The square root of a negative number is NaN, not an error. -/
example [UTable] : Finishes (fun n => quickEval Cfg.default n "sqrt(0-4)".toList (⟨[], []⟩ : Context F64)) (.ok [.scalar ⟨.nan⟩]) := by
  have h := C72_function Cfg.default "sqrt".toList .sqrt (by decide) FElem.sqrt rfl
    (.bin .sub (.num "0".toList none) (.num "4".toList none))
    ⟨wf_num (s := "0") (by decide), wf_num (s := "4") (by decide), by decide, by decide, nofun⟩ (⟨[], []⟩ : Context F64) [ofInt (-4)]
    ⟨by simp, 2, by decide +kernel⟩
  have e : (FElem.sqrt (ofInt (-4)) : F64) = ⟨.nan⟩ := by decide +kernel
  rw [List.map_singleton, e] at h
  exact h

/-- `1&2` (plus or minus) has two results. -/
example [UTable] : Finishes (fun n => quickEval Cfg.default n "1&2".toList (⟨[], []⟩ : Context F64)) (.ok [.scalar (ofInt 3), .scalar (ofInt (-1))]) := by
  have h := C72_operator Cfg.default .addSub _ rfl (.num "1".toList none) (.num "2".toList none)
    ⟨wf_num (s := "1") (by decide), wf_num (s := "2") (by decide), by decide, by decide, nofun⟩ (⟨[], []⟩ : Context F64) [ofInt 1] [ofInt 2]
    ⟨by simp, 2, by decide +kernel⟩ ⟨by simp, 2, by decide +kernel⟩
  have e : (add (ofInt 1) (ofInt 2) : F64) = ofInt 3 ∧ add (ofInt 1) (mul (ofInt 2) (ofInt (-1))) = (ofInt (-1) : F64) := by decide +kernel
  simp only [List.flatMap_cons, List.flatMap_nil, List.append_nil, e.1, e.2] at h
  exact h

/-- C29: a rejected text, and one whose evaluation fails. -/
example [UTable] : quickEval .default 5 "2+(3".toList (⟨[], []⟩ : Context F64) = .err (.parserError .unmatchedOpenDelimiter) ∧
    Finishes (fun n => quickEval .default n "2+y".toList (⟨[], []⟩ : Context F64)) (.err (.evalError (.noVariable "y".toList))) := by
  refine ⟨C29_parse_error .default 5 _ _ ?_, ?_⟩
  · rfl
  · exact ((C29_eval .default _ _ (C09_parse_text (F := F64) .default (.bin .add (.num "2".toList none) (.var "y".toList))
      ⟨wf_num (s := "2") (by decide), wf_name (n := "y") (by decide), by decide, by decide, nofun⟩)).2 _).1 ⟨by simp, 2, by decide +kernel⟩

/-- C10: `8/4/2` is `8/(4/2)`. -/
example [UTable] : Finishes (fun n => quickEval .default n "8/4/2".toList (⟨[], []⟩ : Context F64)) (.ok [.scalar (ofInt 4)]) := by
  refine ((C29_eval .default _ _ (C09_parse_text (F := F64) .default
    (.bin .div (.num "8".toList none) (.bin .div (.num "4".toList none) (.num "2".toList none)))
    ⟨wf_num (s := "8") (by decide), ⟨wf_num (s := "4") (by decide), wf_num (s := "2") (by decide), by decide, by decide, nofun⟩,
      by decide, by decide, nofun⟩)).1 _).1 ⟨by simp, 3, by decide +kernel⟩

end MUL
