import Verif.Spec.Arith
import Verif.Spec.Eval
import Verif.Proofs.ArithExact
import Verif.Num.Rat
import Mathlib.LinearAlgebra.CrossProduct
import Mathlib.Tactic.Linarith
import Mathlib.Tactic.FieldSimp
import Mathlib.Tactic.Ring
/-!
# C30-C35, C37-C40: arithmetic on values

`IsScalar v x`, `IsVector v x`, `IsMatrix v A` (Spec/Arith.lean) say which mathematical object a value is.
-/

set_option linter.unusedSectionVars false

namespace MUL
open Out Spec FArith Matrix

section anyF
variable {F : Type} [FArith F]

/-! ## Shapes (every number type) -/

theorem wfValue_rect {m : List (List F)} (h : WFValue (.matrix m)) : ∃ r c, 0 < r ∧ 0 < c ∧ Rect r c m := by
  obtain ⟨h1, n, hn, h2⟩ := h
  exact ⟨m.length, n, List.length_pos_iff.2 h1, hn, rfl, h2⟩

theorem sameShape_rect {r c r' c' : Nat} {a b : List (List F)} (ha : Rect r c a) (hb : Rect r' c' b) (hr : 0 < r) :
    SameShape (.matrix a) (.matrix b) ↔ r = r' ∧ c = c' := by
  have h1 : a.map List.length = List.replicate r c := by
    rw [← ha.1]
    exact List.eq_replicate_iff.2 ⟨by simp, by simpa using ha.2⟩
  have h2 : b.map List.length = List.replicate r' c' := by
    rw [← hb.1]
    exact List.eq_replicate_iff.2 ⟨by simp, by simpa using hb.2⟩
  simp only [SameShape, h1, h2, List.replicate_inj]
  omega

theorem zipWith_map_right {α β γ δ : Type} (f : α → β → γ) (g : δ → β) (a : List α) (b : List δ) :
    List.zipWith f a (b.map g) = List.zipWith (fun x y => f x (g y)) a b := by
  induction a generalizing b with
  | nil => rfl
  | cons x a ih => cases b <;> simp [ih]

/-- C30: values of the same kind and dimensions are added entry by entry. -/
theorem C30_add [FElem F] (a b : Value F) (ha : WFValue a) (hb : WFValue b) (h : SameShape a b) :
    vAdd a b = .ok (entrywise add a b) := by
  cases a <;> cases b <;> try exact False.elim h
  · obtain ⟨r, c, hr, hc, hra⟩ := wfValue_rect ha
    obtain ⟨r', c', hr', hc', hrb⟩ := wfValue_rect hb
    obtain ⟨rfl, rfl⟩ := (sameShape_rect hra hrb hr).1 h
    exact madd_eq hr hra hrb
  · exact vadd_eq _ _ h
  · rfl

/-- C30: subtraction adds the entries multiplied by -1. -/
theorem C30_sub [FElem F] (a b : Value F) (ha : WFValue a) (hb : WFValue b) (h : SameShape a b) :
    vSub a b = .ok (entrywise (fun x y => add x (mul y (ofInt (-1)))) a b) := by
  cases a <;> cases b <;> try exact False.elim h
  · obtain ⟨r, c, hr, hc, hra⟩ := wfValue_rect ha
    obtain ⟨r', c', hr', hc', hrb⟩ := wfValue_rect hb
    obtain ⟨rfl, rfl⟩ := (sameShape_rect hra hrb hr).1 h
    simp only [vSub, msub_eq hr hra hrb, entrywise, zipWith_map_right]
  · rename_i a b
    have h : a.length = b.length := h
    simp only [vSub, vsub, vadd_eq a (b.map fun x => mul x (ofInt (-1))) (by simpa using h), entrywise, zipWith_map_right]
  · rfl

/-- C30: anything else is an error, for addition and for subtraction. -/
theorem C30_mismatch [FElem F] (a b : Value F) (ha : WFValue a) (hb : WFValue b) (h : ¬ SameShape a b) :
    (∃ e, vAdd a b = .err e) ∧ ∃ e, vSub a b = .err e := by
  cases a <;> cases b <;> try exact ⟨⟨_, rfl⟩, ⟨_, rfl⟩⟩
  · obtain ⟨r, c, hr, hc, hra⟩ := wfValue_rect ha
    obtain ⟨r', c', hr', hc', hrb⟩ := wfValue_rect hb
    rw [sameShape_rect hra hrb hr] at h
    have h' : r ≠ r' ∨ c ≠ c' := by omega
    exact ⟨⟨_, madd_err hra hrb hr hr' h'⟩, ⟨_, msub_err hra hrb hr hr' h'⟩⟩
  · rename_i a b
    have h : a.length ≠ b.length := h
    exact ⟨⟨_, vadd_err a b h⟩, ⟨_, vadd_err a (b.map _) (by simpa using h)⟩⟩
  · exact absurd trivial h

/-- C30: whenever the numbers can be added in either order (true of floats), so can values of one shape. -/
theorem C30_commutes [FElem F] (hc : ∀ x y : F, add x y = add y x) (a b : Value F) (ha : WFValue a) (hb : WFValue b)
    (h : SameShape a b) : vAdd a b = vAdd b a := by
  have h' : SameShape b a := by
    cases a <;> cases b <;> first | exact h.symm | exact h
  rw [C30_add a b ha hb h, C30_add b a hb ha h']
  have hz : ∀ (l m : List F), List.zipWith add l m = List.zipWith add m l := by
    intro l m
    rw [List.zipWith_comm]
    congr 1
    funext x y
    exact hc y x
  cases a <;> cases b <;> try exact False.elim h
  · simp only [entrywise]
    rw [List.zipWith_comm]
    congr 3
    funext x y
    exact hz y x
  · simp only [entrywise, hz]
  · simp only [entrywise, hc]

/-- C32: a scalar may stand on either side of a vector or matrix. -/
theorem C32_either_side [FElem F] (s : F) (v : Value F) (h : kind v ≠ .scalar) :
    vMult (.scalar s) v = vMult v (.scalar s) := by
  cases v <;> first | rfl | exact absurd rfl h

/-- C32: the quotients that are not defined are errors. -/
theorem C32_div_undefined [FElem F] (a b : Value F) (hb : kind b ≠ .scalar)
    (h : ∀ x y, a = .vector x → b = .vector y → x.length ≠ y.length) : ∃ e, vDiv a b = .err e := by
  cases a <;> cases b <;> first
    | exact ⟨_, rfl⟩
    | exact absurd rfl hb
    | skip
  rename_i x y
  have := h x y rfl rfl
  exact ⟨_, by simp only [vDiv, vvdiv]; rw [if_pos this]⟩

/-- C33: vectors of different length have no product. -/
theorem C33_mismatch [FElem F] (a b : List F) (h : a.length ≠ b.length) : ∃ e, vMult (.vector a) (.vector b) = .err e :=
  ⟨_, by simp only [vMult, vvmult]; rw [if_pos h]⟩

/-- C33: the dot product is symmetric whenever multiplication of numbers is (true of floats). -/
theorem C33_symmetric [FElem F] (hc : ∀ x y : F, mul x y = mul y x) (a b : List F) :
    vMult (.vector a) (.vector b) = vMult (.vector b) (.vector a) := by
  by_cases h : a.length = b.length
  · simp only [vMult, vvmult_eq a b h, vvmult_eq b a h.symm]
    congr 2
    unfold dot
    generalize (ofInt 0 : F) = s
    clear h
    induction a generalizing b s with
    | nil => cases b <;> rfl
    | cons x a ih =>
      cases b with
      | nil => rfl
      | cons y b => simp only [List.zip_cons_cons, List.foldl_cons, hc x y, ih]
  · simp only [vMult, vvmult]
    rw [if_pos h, if_pos fun h' => h h'.symm]

/-- C31: the products of matrices and vectors of the wrong dimensions are errors, and so is vector times matrix. -/
theorem C31_mismatch [FElem F] {r c : Nat} (hr : 0 < r) {a : List (List F)} (ha : Rect r c a) :
    (∀ b : List F, b.length ≠ c → ∃ e, vMult (.matrix a) (.vector b) = .err e) ∧
    (∀ (b : List (List F)) (r' c' : Nat), Rect r' c' b → c ≠ r' → ∃ e, vMult (.matrix a) (.matrix b) = .err e) ∧
    (∀ b : List F, ∃ e, vMult (.vector b) (.matrix a) = .err e) :=
  ⟨fun _ hb => ⟨_, mvmult_err hr ha hb⟩, fun _ _ _ hb h => ⟨_, mmmult_err hr ha hb h⟩, fun _ => ⟨_, rfl⟩⟩

/-- C34: vectors of different length or of more than three entries have no cross product. -/
theorem C34_mismatch [FElem F] (a b : List F) (h : a.length ≠ b.length ∨ 3 < a.length) :
    ∃ e, vCross (.vector a) (.vector b) = .err e := by
  by_cases hl : a.length = b.length
  · exact ⟨_, vcross_err2 a b hl (h.resolve_left fun h => h hl)⟩
  · exact ⟨_, vcross_err1 a b hl⟩

/-- C35: only square matrices have a determinant. -/
theorem C35_mismatch [FElem F] (v : Value F) (hv : WFValue v) (h : ∀ m n, v = .matrix m → ¬ Rect n n m) : ∃ e, vDet v = .err e := by
  cases v with
  | scalar s => exact ⟨_, rfl⟩
  | vector l => exact ⟨_, rfl⟩
  | matrix m =>
    obtain ⟨r, c, hr, hc, hm⟩ := wfValue_rect hv
    refine ⟨_, detM_err hr ?_ hm⟩
    rintro rfl
    exact h m r rfl hm

end anyF

/-! ## C40 -/

/-- C40: operands of a kind the operation does not accept are an error, whatever their entries. -/
theorem C40_rejected {F : Type} [FNum F] (op : SimpleOp) (a b : Value F) (h : accepts op (kind a) (kind b) = false) :
    ∃ e, opTable op a b = .err e := by
  cases op <;> cases a <;> cases b <;> first
    | exact ⟨_, rfl⟩
    | exact Bool.noConfusion h



section exact
variable {F : Type} [FArith F] [FElem F] {K : Type} [Field K] [LinearOrder K] [IsStrictOrderedRing K] [FloorRing K] [Exact F K]

/-! ## C30 -/

theorem val_sub' (a b : F) (x y : K) (ha : Exact.val a = some x) (hb : Exact.val b = some y) :
    Exact.val (add a (mul b (ofInt (-1)))) = some (x - y) := by
  rw [Exact.val_add ha (Exact.val_mul hb val_minus_one)]
  simp [sub_eq_add_neg]

theorem val_neg' (a : F) (x : K) (ha : Exact.val a = some x) : Exact.val (mul (ofInt (-1)) a) = some (-x) := by
  rw [Exact.val_mul val_minus_one ha]
  simp

/-- C30: sums of scalars, vectors and matrices are the mathematical sums. -/
theorem C30_sum {a b : Value F} :
    (∀ x y : K, IsScalar a x → IsScalar b y → ∃ v, vAdd a b = .ok v ∧ IsScalar v (x + y)) ∧
    (∀ (n : Nat) (x y : Fin n → K), IsVector a x → IsVector b y → ∃ v, vAdd a b = .ok v ∧ IsVector v (x + y)) ∧
    (∀ (r c : Nat) (A B : Matrix (Fin (r + 1)) (Fin c) K), IsMatrix a A → IsMatrix b B →
      ∃ v, vAdd a b = .ok v ∧ IsMatrix v (A + B)) := by
  refine ⟨?_, ?_, ?_⟩
  · rintro x y ⟨a, rfl, ha⟩ ⟨b, rfl, hb⟩
    exact ⟨_, rfl, _, rfl, Exact.val_add ha hb⟩
  · intro n x y ha hb
    replace ha := isVector_iff.1 ha; obtain ⟨a, rfl, ha⟩ := ha
    replace hb := isVector_iff.1 hb; obtain ⟨b, rfl, hb⟩ := hb
    exact ⟨_, vadd_eq a b (ha.1.trans hb.1.symm), isVector_iff.2 ⟨_, rfl, ha.zipWith hb fun _ _ _ _ => Exact.val_add⟩⟩
  · intro r c A B ha hb
    replace ha := isMatrix_iff.1 ha; obtain ⟨a, rfl, ha⟩ := ha
    replace hb := isMatrix_iff.1 hb; obtain ⟨b, rfl, hb⟩ := hb
    exact ⟨_, madd_eq (by omega) ha.rect hb.rect,
      isMatrix_iff.2 ⟨_, rfl, (ha.zipWith hb fun _ _ _ _ => Exact.val_add).congr rfl⟩⟩

/-- C30: differences are the mathematical differences. -/
theorem C30_difference {a b : Value F} :
    (∀ x y : K, IsScalar a x → IsScalar b y → ∃ v, vSub a b = .ok v ∧ IsScalar v (x - y)) ∧
    (∀ (n : Nat) (x y : Fin n → K), IsVector a x → IsVector b y → ∃ v, vSub a b = .ok v ∧ IsVector v (x - y)) ∧
    (∀ (r c : Nat) (A B : Matrix (Fin (r + 1)) (Fin c) K), IsMatrix a A → IsMatrix b B →
      ∃ v, vSub a b = .ok v ∧ IsMatrix v (A - B)) := by
  refine ⟨?_, ?_, ?_⟩
  · rintro x y ⟨a, rfl, ha⟩ ⟨b, rfl, hb⟩
    exact ⟨_, rfl, _, rfl, val_sub' _ _ _ _ ha hb⟩
  · intro n x y ha hb
    replace ha := isVector_iff.1 ha; obtain ⟨a, rfl, ha⟩ := ha
    replace hb := isVector_iff.1 hb; obtain ⟨b, rfl, hb⟩ := hb
    refine ⟨_, vadd_eq a (b.map _) (by simpa using ha.1.trans hb.1.symm), isVector_iff.2 ⟨_, rfl, ?_⟩⟩
    rw [zipWith_map_right]
    exact ha.zipWith hb val_sub'
  · intro r c A B ha hb
    replace ha := isMatrix_iff.1 ha; obtain ⟨a, rfl, ha⟩ := ha
    replace hb := isMatrix_iff.1 hb; obtain ⟨b, rfl, hb⟩ := hb
    refine ⟨_, msub_eq (by omega) ha.rect hb.rect, isMatrix_iff.2 ⟨_, rfl, ?_⟩⟩
    simp only [zipWith_map_right]
    exact (ha.zipWith hb val_sub').congr rfl

/-- C30: negation is the mathematical negation. -/
theorem C30_negation {a : Value F} :
    (∀ x : K, IsScalar a x → ∃ v, vNeg a = .ok v ∧ IsScalar v (-x)) ∧
    (∀ (n : Nat) (x : Fin n → K), IsVector a x → ∃ v, vNeg a = .ok v ∧ IsVector v (-x)) ∧
    (∀ (r c : Nat) (A : Matrix (Fin r) (Fin c) K), IsMatrix a A → ∃ v, vNeg a = .ok v ∧ IsMatrix v (-A)) := by
  refine ⟨?_, ?_, ?_⟩
  · rintro x ⟨a, rfl, ha⟩
    exact ⟨_, rfl, _, rfl, val_neg' _ _ ha⟩
  · intro n x ha
    replace ha := isVector_iff.1 ha; obtain ⟨a, rfl, ha⟩ := ha
    exact ⟨_, rfl, isVector_iff.2 ⟨_, rfl, ha.map val_neg'⟩⟩
  · intro r c A ha
    replace ha := isMatrix_iff.1 ha; obtain ⟨a, rfl, ha⟩ := ha
    exact ⟨_, rfl, isMatrix_iff.2 ⟨_, rfl, (ha.map val_neg').congr rfl⟩⟩

/-- C30: adding is associative, and subtracting a matrix from itself gives the zero matrix. -/
theorem C30_laws {a b c : Value F} {r k : Nat} {A B C : Matrix (Fin (r + 1)) (Fin k) K} (ha : IsMatrix a A) (hb : IsMatrix b B)
    (hc : IsMatrix c C) :
    (∃ v w, (vAdd a b >>= fun x => vAdd x c) = .ok v ∧ (vAdd b c >>= fun x => vAdd a x) = .ok w ∧
      IsMatrix v (A + B + C) ∧ IsMatrix w (A + B + C)) ∧
    (∃ v, vSub a a = .ok v ∧ IsMatrix v (0 : Matrix (Fin (r + 1)) (Fin k) K)) := by
  obtain ⟨ab, h1, h2⟩ := C30_sum.2.2 _ _ _ _ ha hb
  obtain ⟨bc, h3, h4⟩ := C30_sum.2.2 _ _ _ _ hb hc
  obtain ⟨v, h5, h6⟩ := C30_sum.2.2 _ _ _ _ h2 hc
  obtain ⟨w, h7, h8⟩ := C30_sum.2.2 _ _ _ _ ha h4
  obtain ⟨z, h9, h10⟩ := C30_difference.2.2 _ _ _ _ ha ha
  rw [← add_assoc] at h8
  rw [sub_self] at h10
  exact ⟨⟨v, w, by rw [h1]; exact h5, by rw [h3]; exact h7, h6, h8⟩, z, h9, h10⟩

/-- C30: the same for scalars and vectors; and negating twice changes nothing. -/
theorem C30_laws_all {a b c : Value F} :
    (∀ x y z : K, IsScalar a x → IsScalar b y → IsScalar c z →
      (∃ v w, (vAdd a b >>= fun x => vAdd x c) = .ok v ∧ (vAdd b c >>= fun x => vAdd a x) = .ok w ∧ IsScalar v (x + y + z) ∧
        IsScalar w (x + y + z)) ∧ (∃ v, vSub a a = .ok v ∧ IsScalar v (0 : K)) ∧ ∃ v, (vNeg a >>= vNeg) = .ok v ∧ IsScalar v x) ∧
    (∀ (n : Nat) (x y z : Fin n → K), IsVector a x → IsVector b y → IsVector c z →
      (∃ v w, (vAdd a b >>= fun x => vAdd x c) = .ok v ∧ (vAdd b c >>= fun x => vAdd a x) = .ok w ∧ IsVector v (x + y + z) ∧
        IsVector w (x + y + z)) ∧ (∃ v, vSub a a = .ok v ∧ IsVector v (0 : Fin n → K)) ∧ ∃ v, (vNeg a >>= vNeg) = .ok v ∧ IsVector v x) ∧
    (∀ (r k : Nat) (A : Matrix (Fin r) (Fin k) K), IsMatrix a A → ∃ v, (vNeg a >>= vNeg) = .ok v ∧ IsMatrix v A) := by
  refine ⟨fun x y z ha hb hc => ?_, fun n x y z ha hb hc => ?_, fun r k A ha => ?_⟩
  · obtain ⟨ab, h1, h2⟩ := C30_sum.1 _ _ ha hb
    obtain ⟨bc, h3, h4⟩ := C30_sum.1 _ _ hb hc
    obtain ⟨v, h5, h6⟩ := C30_sum.1 _ _ h2 hc
    obtain ⟨w, h7, h8⟩ := C30_sum.1 _ _ ha h4
    obtain ⟨z, h9, h10⟩ := C30_difference.1 _ _ ha ha
    obtain ⟨m, k1, k2⟩ := C30_negation.1 _ ha
    obtain ⟨m', k3, k4⟩ := C30_negation.1 _ k2
    rw [← add_assoc] at h8
    rw [sub_self] at h10
    rw [neg_neg] at k4
    exact ⟨⟨v, w, by rw [h1]; exact h5, by rw [h3]; exact h7, h6, h8⟩, ⟨z, h9, h10⟩, m', by rw [k1]; exact k3, k4⟩
  · obtain ⟨ab, h1, h2⟩ := C30_sum.2.1 _ _ _ ha hb
    obtain ⟨bc, h3, h4⟩ := C30_sum.2.1 _ _ _ hb hc
    obtain ⟨v, h5, h6⟩ := C30_sum.2.1 _ _ _ h2 hc
    obtain ⟨w, h7, h8⟩ := C30_sum.2.1 _ _ _ ha h4
    obtain ⟨z, h9, h10⟩ := C30_difference.2.1 _ _ _ ha ha
    obtain ⟨m, k1, k2⟩ := C30_negation.2.1 _ _ ha
    obtain ⟨m', k3, k4⟩ := C30_negation.2.1 _ _ k2
    rw [← add_assoc] at h8
    rw [sub_self] at h10
    rw [neg_neg] at k4
    exact ⟨⟨v, w, by rw [h1]; exact h5, by rw [h3]; exact h7, h6, h8⟩, ⟨z, h9, h10⟩, m', by rw [k1]; exact k3, k4⟩
  · obtain ⟨m, k1, k2⟩ := C30_negation.2.2 _ _ _ ha
    obtain ⟨m', k3, k4⟩ := C30_negation.2.2 _ _ _ k2
    rw [neg_neg] at k4
    exact ⟨m', by rw [k1]; exact k3, k4⟩

/-! ## C31 -/

/-- C31: matrix times matrix is the mathematical product. -/
theorem C31_product {a b : Value F} {n k m : Nat} {A : Matrix (Fin (n + 1)) (Fin (k + 1)) K} {B : Matrix (Fin (k + 1)) (Fin m) K}
    (ha : IsMatrix a A) (hb : IsMatrix b B) : ∃ v, vMult a b = .ok v ∧ IsMatrix v (A * B) := by
  replace ha := isMatrix_iff.1 ha; obtain ⟨a, rfl, ha⟩ := ha
  replace hb := isMatrix_iff.1 hb; obtain ⟨b, rfl, hb⟩ := hb
  exact ⟨_, mmmult_eq (by omega) (by omega) ha.rect hb.rect, isMatrix_iff.2 ⟨_, rfl, ha.mul hb⟩⟩

/-- C31: matrix times vector. -/
theorem C31_apply {a b : Value F} {n k : Nat} {A : Matrix (Fin (n + 1)) (Fin k) K} {x : Fin k → K}
    (ha : IsMatrix a A) (hb : IsVector b x) : ∃ v, vMult a b = .ok v ∧ IsVector v (A *ᵥ x) := by
  replace ha := isMatrix_iff.1 ha; obtain ⟨a, rfl, ha⟩ := ha
  replace hb := isVector_iff.1 hb; obtain ⟨b, rfl, hb⟩ := hb
  exact ⟨_, mvmult_eq (by omega) ha.rect hb.1, isVector_iff.2 ⟨_, rfl, ha.mulVec hb⟩⟩

/-- C31: products of matrices associate, also when applied to a vector. -/
theorem C31_associative {a b c d : Value F} {n k m l : Nat} {A : Matrix (Fin (n + 1)) (Fin (k + 1)) K}
    {B : Matrix (Fin (k + 1)) (Fin (m + 1)) K} {C : Matrix (Fin (m + 1)) (Fin l) K} {x : Fin (m + 1) → K}
    (ha : IsMatrix a A) (hb : IsMatrix b B) (hc : IsMatrix c C) (hd : IsVector d x) :
    (∃ v w, (vMult a b >>= fun x => vMult x c) = .ok v ∧ (vMult b c >>= fun x => vMult a x) = .ok w ∧
      IsMatrix v (A * B * C) ∧ IsMatrix w (A * B * C)) ∧
    (∃ v w, (vMult a b >>= fun x => vMult x d) = .ok v ∧ (vMult b d >>= fun x => vMult a x) = .ok w ∧
      IsVector v (A *ᵥ (B *ᵥ x)) ∧ IsVector w (A *ᵥ (B *ᵥ x))) := by
  obtain ⟨ab, h1, h2⟩ := C31_product ha hb
  obtain ⟨bc, h3, h4⟩ := C31_product hb hc
  obtain ⟨v, h5, h6⟩ := C31_product h2 hc
  obtain ⟨w, h7, h8⟩ := C31_product ha h4
  obtain ⟨bx, g1, g2⟩ := C31_apply hb hd
  obtain ⟨v', g3, g4⟩ := C31_apply h2 hd
  obtain ⟨w', g5, g6⟩ := C31_apply ha g2
  rw [← Matrix.mul_assoc] at h8
  rw [← Matrix.mulVec_mulVec] at g4
  exact ⟨⟨v, w, by rw [h1]; exact h5, by rw [h3]; exact h7, h6, h8⟩, v', w', by rw [h1]; exact g3, by rw [g1]; exact g5, g4, g6⟩

/-! ## C32 -/

/-- C32: scaling. -/
theorem C32_scale {a s : Value F} {t : K} (hs : IsScalar s t) :
    (∀ x : K, IsScalar a x → ∃ v, vMult s a = .ok v ∧ IsScalar v (t * x)) ∧
    (∀ (n : Nat) (x : Fin n → K), IsVector a x → ∃ v, vMult s a = .ok v ∧ IsVector v (t • x)) ∧
    (∀ (r c : Nat) (A : Matrix (Fin r) (Fin c) K), IsMatrix a A → ∃ v, vMult s a = .ok v ∧ IsMatrix v (t • A)) := by
  obtain ⟨s, rfl, hs⟩ := hs
  refine ⟨?_, ?_, ?_⟩
  · rintro x ⟨a, rfl, ha⟩
    exact ⟨_, rfl, _, rfl, Exact.val_mul hs ha⟩
  · intro n x ha
    replace ha := isVector_iff.1 ha; obtain ⟨a, rfl, ha⟩ := ha
    refine ⟨_, rfl, isVector_iff.2 ⟨_, rfl, (ha.map (g := fun y => t * y) fun b y hb => ?_).congr rfl⟩⟩
    rw [Exact.val_mul hb hs, mul_comm]
  · intro r c A ha
    replace ha := isMatrix_iff.1 ha; obtain ⟨a, rfl, ha⟩ := ha
    refine ⟨_, smmult_eq s ha.rect, isMatrix_iff.2 ⟨_, rfl, (ha.map (g := fun y => t * y) fun b y hb => ?_).congr rfl⟩⟩
    rw [Exact.val_mul hb hs, mul_comm]

/-- C32: division by a non-zero scalar divides every entry. -/
theorem C32_divide {a s : Value F} {t : K} (hs : IsScalar s t) (ht : t ≠ 0) :
    (∀ x : K, IsScalar a x → ∃ v, vDiv a s = .ok v ∧ IsScalar v (x / t)) ∧
    (∀ (n : Nat) (x : Fin n → K), IsVector a x → ∃ v, vDiv a s = .ok v ∧ IsVector v (fun i => x i / t)) ∧
    (∀ (r c : Nat) (A : Matrix (Fin r) (Fin c) K), IsMatrix a A →
      ∃ v, vDiv a s = .ok v ∧ IsMatrix v (Matrix.of fun i j => A i j / t)) := by
  obtain ⟨s, rfl, hs⟩ := hs
  have key : ∀ (b : F) (y : K), Exact.val b = some y → Exact.val (mul b (div (ofInt 1) s)) = some (y / t) := by
    intro b y hb
    rw [Exact.val_mul hb (Exact.val_div val_one hs ht), mul_one_div]
  refine ⟨?_, ?_, ?_⟩
  · rintro x ⟨a, rfl, ha⟩
    exact ⟨_, rfl, _, rfl, Exact.val_div ha hs ht⟩
  · intro n x ha
    replace ha := isVector_iff.1 ha; obtain ⟨a, rfl, ha⟩ := ha
    exact ⟨_, rfl, isVector_iff.2 ⟨_, rfl, ha.map key⟩⟩
  · intro r c A ha
    replace ha := isMatrix_iff.1 ha; obtain ⟨a, rfl, ha⟩ := ha
    exact ⟨_, smmult_eq _ ha.rect, isMatrix_iff.2 ⟨_, rfl, ha.map key⟩⟩

/-- C32: division by zero never yields a number. -/
theorem C32_divide_zero {a s : F} (hs : Exact.val s = some (0 : K)) :
    ∃ q, vDiv (.scalar a) (.scalar s) = .ok (.scalar q) ∧ Exact.val q = none :=
  ⟨_, rfl, Exact.div_none (Or.inr hs)⟩

/-- C32: the quotient of two vectors is the sum of the quotients of their entries. -/
theorem C32_vector_quotient {a b : Value F} {n : Nat} {x y : Fin n → K} (ha : IsVector a x) (hb : IsVector b y)
    (hy : ∀ i, y i ≠ 0) : ∃ v, vDiv a b = .ok v ∧ IsScalar v (∑ i, x i / y i) := by
  replace ha := isVector_iff.1 ha; obtain ⟨a, rfl, ha⟩ := ha
  replace hb := isVector_iff.1 hb; obtain ⟨b, rfl, hb⟩ := hb
  refine ⟨_, vvdiv_eq a b (ha.1.trans hb.1.symm), _, rfl, ?_⟩
  have := sum_fold ha hb (f := div) (g := (· / ·)) (fun i _ _ h1 h2 => Exact.val_div h1 h2 (hy i)) (ofInt 0) 0 val_zero
  rwa [zero_add] at this

/-! ## C33 -/

/-- C33: vector times vector is the dot product. -/
theorem C33_dot {a b : Value F} {n : Nat} {x y : Fin n → K} (ha : IsVector a x) (hb : IsVector b y) :
    ∃ v, vMult a b = .ok v ∧ IsScalar v (x ⬝ᵥ y) := by
  replace ha := isVector_iff.1 ha; obtain ⟨a, rfl, ha⟩ := ha
  replace hb := isVector_iff.1 hb; obtain ⟨b, rfl, hb⟩ := hb
  exact ⟨_, vvmult_eq a b (ha.1.trans hb.1.symm), _, rfl, dot_val ha hb⟩

/-- C33: abs of a scalar is its absolute value. -/
theorem C33_abs_scalar {a : Value F} {x : K} (ha : IsScalar a x) : ∃ v, vAbs a = .ok v ∧ IsScalar v |x| := by
  obtain ⟨a, rfl, ha⟩ := ha
  simp only [vAbs, Exact.lt_val ha val_zero]
  by_cases h : x < 0
  · refine ⟨_, by rw [if_pos (by simpa using h)], _, rfl, ?_⟩
    rw [Exact.val_mul ha val_minus_one, abs_of_neg h, mul_neg_one]
  · refine ⟨_, by rw [if_neg (by simpa using h)], _, rfl, ?_⟩
    rw [ha, abs_of_nonneg (not_lt.1 h)]

/-- C33: abs of a vector is the square root of its dot product with itself. -/
theorem C33_abs_vector {a : Value F} {n : Nat} {x : Fin n → K} (ha : IsVector a x) :
    ∃ s : F, Exact.val s = some (x ⬝ᵥ x) ∧ vAbs a = .ok (.scalar (FElem.sqrt s)) := by
  replace ha := isVector_iff.1 ha; obtain ⟨a, rfl, ha⟩ := ha
  refine ⟨_, ?_, rfl⟩
  have key : ∀ (n : Nat) (a : List F) (x : Fin n → K) (s : F) (s' : K), VecIs a x → Exact.val s = some s' →
      Exact.val (a.foldl (fun sum i => add sum (powi i 2)) s) = some (s' + ∑ i, x i * x i) := by
    intro n
    induction n with
    | zero =>
      intro a x s s' ha hs
      have h1 : a = [] := List.length_eq_zero_iff.1 ha.1
      subst h1
      simpa using hs
    | succ n ih =>
      intro a x s s' ha hs
      match a, ha with
      | [], ha => exact absurd ha.1 (by simp)
      | a :: as, ha =>
        obtain ⟨ha0, ha⟩ := vecIs_cons.1 ha
        rw [List.foldl_cons, ih as _ (add s (powi a 2)) (s' + x 0 * x 0) ha, Fin.sum_univ_succ, add_assoc]
        have := Exact.val_powi (n := 2) ha0 (Or.inl (by omega))
        rw [Exact.val_add hs this]
        congr 2
        rw [show (2 : Int) = ((2 : Nat) : Int) from rfl, zpow_natCast, sq]
  have := key n a x (ofInt 0) 0 ha val_zero
  rw [zero_add] at this
  exact this

/-! ## C34 -/

/-- Three coordinates of a vector, missing ones are zero. -/
def fill3 {n : Nat} (x : Fin n → K) : Fin 3 → K := fun i => if h : i.1 < n then x ⟨i.1, h⟩ else 0

/-- C34: the cross product. -/
theorem C34_cross {a b : Value F} {n : Nat} {x y : Fin n → K} (hn : n ≤ 3) (ha : IsVector a x) (hb : IsVector b y) :
    ∃ v, vCross a b = .ok v ∧ IsVector v (crossProduct (fill3 x) (fill3 y)) := by
  replace ha := isVector_iff.1 ha; obtain ⟨a, rfl, ha⟩ := ha
  replace hb := isVector_iff.1 hb; obtain ⟨b, rfl, hb⟩ := hb
  refine ⟨_, vcross_eq a b (ha.1.trans hb.1.symm) (by rw [ha.1]; exact hn), isVector_iff.2 ⟨_, rfl, ?_⟩⟩
  have pad : ∀ (l : List F) (z : Fin n → K), VecIs l z → ∃ p q r, pad3 l = [p, q, r] ∧ Exact.val p = some (fill3 z 0) ∧
      Exact.val q = some (fill3 z 1) ∧ Exact.val r = some (fill3 z 2) := by
    intro l z hl
    match n, hn, z, l, hl with
    | 0, _, z, [], hl => exact ⟨_, _, _, rfl, val_zero, val_zero, val_zero⟩
    | 1, _, z, [p], hl => exact ⟨_, _, _, rfl, hl.2 0, val_zero, val_zero⟩
    | 2, _, z, [p, q], hl => exact ⟨_, _, _, rfl, hl.2 0, hl.2 1, val_zero⟩
    | 3, _, z, [p, q, r], hl => exact ⟨_, _, _, rfl, hl.2 0, hl.2 1, hl.2 2⟩
    | 0, _, _, _ :: _, hl => exact absurd hl.1 (by simp)
    | 1, _, _, [], hl | 2, _, _, [], hl | 3, _, _, [], hl | 2, _, _, [_], hl | 3, _, _, [_], hl | 3, _, _, [_, _], hl =>
      exact absurd hl.1 (by simp)
    | 1, _, _, _ :: _ :: _, hl | 2, _, _, _ :: _ :: _ :: _, hl | 3, _, _, _ :: _ :: _ :: _ :: _, hl =>
      exact absurd hl.1 (by simp)
  obtain ⟨a0, a1, a2, hp, h0, h1, h2⟩ := pad a x ha
  obtain ⟨b0, b1, b2, hq, g0, g1, g2⟩ := pad b y hb
  unfold crossL
  rw [hp, hq, cross_apply]
  refine ⟨rfl, fun i => ?_⟩
  match i with
  | 0 => exact Exact.val_sub (Exact.val_mul h1 g2) (Exact.val_mul h2 g1)
  | 1 => exact Exact.val_sub (Exact.val_mul h2 g0) (Exact.val_mul h0 g2)
  | 2 => exact Exact.val_sub (Exact.val_mul h0 g1) (Exact.val_mul h1 g0)

/-- C34: for three-dimensional vectors the result is orthogonal to both operands and changes sign when they are
swapped. -/
theorem C34_laws {a b : Value F} {x y : Fin 3 → K} (ha : IsVector a x) (hb : IsVector b y) :
    ∃ (v w p q : Value F) (z : Fin 3 → K), vCross a b = .ok v ∧ vCross b a = .ok w ∧ IsVector v z ∧ IsVector w (-z) ∧
      vMult a v = .ok p ∧ IsScalar p (0 : K) ∧ vMult b v = .ok q ∧ IsScalar q (0 : K) := by
  have h3 : ∀ x : Fin 3 → K, fill3 x = x := by
    intro x
    funext i
    simp [fill3]
  obtain ⟨v, h1, h2⟩ := C34_cross (le_refl 3) ha hb
  obtain ⟨w, g1, g2⟩ := C34_cross (le_refl 3) hb ha
  rw [h3, h3] at h2 g2
  obtain ⟨p, h5, h6⟩ := C33_dot ha h2
  obtain ⟨q, h7, h8⟩ := C33_dot hb h2
  rw [dot_self_cross] at h6
  rw [dot_cross_self] at h8
  rw [← cross_anticomm] at g2
  exact ⟨v, w, p, q, _, h1, g1, h2, g2, h5, h6, h7, h8⟩

/-! ## C35 -/

/-- C35: det is the determinant. -/
theorem C35_det {a : Value F} {n : Nat} {A : Matrix (Fin (n + 1)) (Fin (n + 1)) K} (ha : IsMatrix a A) :
    ∃ v, vDet a = .ok v ∧ IsScalar v A.det := by
  replace ha := isMatrix_iff.1 ha; obtain ⟨a, rfl, ha⟩ := ha
  exact ⟨_, detM_eq (by omega) ha.rect, _, rfl, detL_val (by omega) ha⟩

/-- C35: hence multiplicative, and the same for the transposed matrix. -/
theorem C35_laws {a b t : Value F} {n : Nat} {A B : Matrix (Fin (n + 1)) (Fin (n + 1)) K} (ha : IsMatrix a A) (hb : IsMatrix b B)
    (ht : IsMatrix t Aᵀ) :
    (∃ p v, vMult a b = .ok p ∧ vDet p = .ok v ∧ IsScalar v (A.det * B.det)) ∧
    (∃ v, vDet t = .ok v ∧ IsScalar v A.det) := by
  obtain ⟨p, h1, h2⟩ := C31_product ha hb
  obtain ⟨v, h3, h4⟩ := C35_det h2
  obtain ⟨w, h5, h6⟩ := C35_det ht
  rw [Matrix.det_mul] at h4
  rw [Matrix.det_transpose] at h6
  exact ⟨⟨p, v, h1, h3, h4⟩, w, h5, h6⟩

/-! ## C37 -/

theorem roundAway_int (k : Int) : roundAway (k : K) = k := by
  unfold roundAway
  have h1 : ⌊(k : K) + 1 / 2⌋ = k := by
    rw [Int.floor_eq_iff]
    constructor <;> linarith [one_half_pos (α := K), one_half_lt_one (α := K)]
  have h2 : ⌊-(k : K) + 1 / 2⌋ = -k := by
    rw [Int.floor_eq_iff]
    push_cast
    constructor <;> linarith [one_half_pos (α := K), one_half_lt_one (α := K)]
  split
  · exact h1
  · rw [h2]; simp

theorem truncate_int (k : Int) : truncate (k : K) = k := by
  unfold truncate
  split
  · exact Int.floor_intCast k
  · rw [← Int.cast_neg, Int.floor_intCast]; simp

theorem round_beq {b : F} {x : K} (hb : Exact.val b = some x) : beq (round b) b = true ↔ ∃ k : Int, x = k := by
  have h1 : Exact.val (round b) = some (roundAway x : K) := by rw [Exact.val_round, hb]; rfl
  rw [Exact.beq_val h1 hb, decide_eq_true_eq]
  constructor
  · intro h; exact ⟨_, h.symm⟩
  · rintro ⟨k, rfl⟩; rw [roundAway_int]

/-- C37: a square matrix to a natural power is the n-fold product. -/
theorem C37_power {a b : Value F} {n k : Nat} {A : Matrix (Fin (n + 1)) (Fin (n + 1)) K} (ha : IsMatrix a A)
    (hb : IsScalar b (k : K)) (hk : k < 2 ^ 31) : ∃ v, vPow a b = .ok v ∧ IsMatrix v (A ^ k) := by
  replace ha := isMatrix_iff.1 ha; obtain ⟨a, rfl, ha⟩ := ha
  obtain ⟨b, rfl, hb⟩ := hb
  have hr : beq (round b) b = true := (round_beq hb).2 ⟨k, by simp⟩
  have ht : (toI32 b).toNat = k := by
    have h := truncate_int (K := K) (k : Int)
    rw [Int.cast_natCast] at h
    rw [Exact.val_toI32 hb, h]
    omega
  refine ⟨_, mspow_eq (by omega) ha.rect b hr, isMatrix_iff.2 ⟨_, rfl, ?_⟩⟩
  rw [ht]
  exact ha.pow k

/-- C37: a number that is not an integer is rejected as exponent of a matrix. -/
theorem C37_not_integer {m : List (List F)} {b : Value F} {x : K} (hb : IsScalar b x) (hx : ¬ ∃ k : Int, x = k) :
    ∃ e, vPow (.matrix m) b = .err e := by
  obtain ⟨b, rfl, hb⟩ := hb
  exact ⟨_, mspow_not_int m b (Bool.eq_false_iff.2 fun h => hx ((round_beq hb).1 h))⟩

/-- C37: a matrix that is not square cannot be raised to a positive power. -/
theorem C37_not_square {a b : Value F} {r c k : Nat} {A : Matrix (Fin (r + 1)) (Fin c) K} (hrc : r + 1 ≠ c) (ha : IsMatrix a A)
    (hb : IsScalar b (k : K)) (hk : 0 < k) : ∃ e, vPow a b = .err e := by
  replace ha := isMatrix_iff.1 ha; obtain ⟨a, rfl, ha⟩ := ha
  obtain ⟨b, rfl, hb⟩ := hb
  have hr : beq (round b) b = true := (round_beq hb).2 ⟨k, by simp⟩
  have ht : (toI32 b).toNat ≠ 0 := by
    have h := truncate_int (K := K) (k : Int)
    rw [Int.cast_natCast] at h
    rw [Exact.val_toI32 hb, h]
    omega
  exact ⟨_, by simp only [vPow]; rw [mspow_not_square (by omega) hrc ha.rect b hr, if_neg ht]⟩

/-- C37 (what the code does instead of inverting): for a negative integer exponent the result is the identity matrix,
whatever the matrix. -/
theorem C37_negative {a b : Value F} {n k : Nat} {A : Matrix (Fin (n + 1)) (Fin (n + 1)) K} (ha : IsMatrix a A)
    (hb : IsScalar b (-(k : K))) : ∃ v, vPow a b = .ok v ∧ IsMatrix v (1 : Matrix (Fin (n + 1)) (Fin (n + 1)) K) := by
  replace ha := isMatrix_iff.1 ha; obtain ⟨a, rfl, ha⟩ := ha
  obtain ⟨b, rfl, hb⟩ := hb
  have hb' : Exact.val b = some (((-(k : Int) : Int)) : K) := by rw [hb]; simp
  have hr : beq (round b) b = true := (round_beq hb').2 ⟨_, rfl⟩
  have ht : (toI32 b).toNat = 0 := by
    rw [Exact.val_toI32 hb', truncate_int]
    omega
  refine ⟨_, mspow_eq (by omega) ha.rect b hr, isMatrix_iff.2 ⟨_, rfl, ?_⟩⟩
  rw [ht]
  exact eyeL_is _

/-! ## C38 -/

/-- C38: indexing succeeds exactly with the natural numbers below the length (written without a minus sign), and
yields that entry. -/
theorem C38_index (l : List F) (hl : l ≠ []) (hmax : l.length < 2 ^ 64) (b : F) (v : Value F) :
    vGet (.vector l) (.scalar b) = .ok v ↔
      ∃ (i : Nat) (h : i < l.length), Exact.val b = some (i : K) ∧ isSignNeg b = false ∧ v = .scalar l[i] := by
  have hpos : 0 < l.length := List.length_pos_iff.2 hl
  simp only [vGet]
  cases hb : (Exact.val b : Option K) with
  | none =>
    have : beq (rem b (ofInt 1)) (ofInt 0) = false := Exact.beq_none_left (Exact.rem_none hb) val_zero
    rw [this]
    simp
  | some x =>
    have hrem := Exact.val_rem (F := F) hb val_one one_ne_zero
    rw [Exact.beq_val hrem val_zero]
    simp only [div_one, mul_one, sub_eq_zero]
    by_cases hs : isSignNeg b = true
    · rw [if_pos (by simp [hs])]
      simp [hs]
    · have hs : isSignNeg b = false := by simpa using hs
      have hx0 : 0 ≤ x := by
        by_contra h
        rw [Exact.sign_neg hb (not_le.1 h)] at hs
        cases hs
      by_cases hint : x = truncate x
      · rw [if_neg (by simp [hs, ← hint]), if_neg (by omega)]
        have hn : x = ((truncate x).toNat : K) := by
          have h0 : 0 ≤ truncate x := by unfold truncate; rw [if_pos hx0]; exact Int.floor_nonneg.2 hx0
          conv_lhs => rw [hint]
          rw [← Int.cast_natCast, Int.toNat_of_nonneg h0]
        generalize (truncate x).toNat = k at hn
        subst hn
        have hu : toUsize b = min k (2 ^ 64 - 1) := by
          rw [Exact.val_toUsize hb hx0]
          simp
        rw [hu]
        constructor
        · split
          · intro h; cases h
          · rename_i hlt
            have hk : k < l.length := by omega
            rw [Nat.min_eq_left (by omega), idx_lt hk]
            intro h
            injection h with h
            exact ⟨k, hk, rfl, hs, h.symm⟩
        · rintro ⟨i, hi, h1, -, rfl⟩
          have : k = i := by exact_mod_cast Option.some.inj h1
          subst this
          rw [if_neg (by omega), Nat.min_eq_left (by omega), idx_lt hi]
          rfl
      · rw [if_pos (by simp [hint])]
        constructor
        · intro h; cases h
        · rintro ⟨i, hi, h1, -, -⟩
          exfalso
          apply hint
          have : x = ((i : Int) : K) := by simpa using Option.some.inj h1
          rw [this, truncate_int]

/-- C38: every other index is an error (not a panic). -/
theorem C38_error (l : List F) (hl : l ≠ []) (b : F)
    (h : ∀ v, vGet (.vector l) (.scalar b) ≠ .ok v) : ∃ e, vGet (.vector l) (.scalar b) = .err e := by
  have hpos : 0 < l.length := List.length_pos_iff.2 hl
  simp only [vGet] at h ⊢
  split at h
  · rename_i hc; rw [if_pos hc]; exact ⟨_, rfl⟩
  · rename_i hc
    rw [if_neg hc, if_neg (by omega)]
    rw [if_neg (by omega)] at h
    split at h
    · rename_i hc; rw [if_pos hc]; exact ⟨_, rfl⟩
    · rename_i hc
      rw [idx_lt (by omega), ok_bind] at h
      exact absurd rfl (h _)

/-- C38: only vectors can be indexed, and only by scalars. -/
theorem C38_kinds (a b : Value F) (h : ¬ (kind a = .vector ∧ kind b = .scalar)) : ∃ e, vGet a b = .err e := by
  cases a <;> cases b <;> first | exact ⟨_, rfl⟩ | exact absurd ⟨rfl, rfl⟩ h

/-! ## C39 -/

theorem roundAway_near (x : K) : |(roundAway x : K) - x| ≤ 1 / 2 := by
  unfold roundAway
  rw [abs_le]
  split
  · have h1 := Int.floor_le (x + 1 / 2)
    have h2 := Int.lt_floor_add_one (x + 1 / 2)
    constructor <;> linarith
  · have h1 := Int.floor_le (-x + 1 / 2)
    have h2 := Int.lt_floor_add_one (-x + 1 / 2)
    push_cast
    constructor <;> linarith

theorem roundAway_mono {x y : K} (h : x ≤ y) : roundAway x ≤ roundAway y := by
  unfold roundAway
  have hhalf : (0 : K) < 1 / 2 := one_half_pos
  split <;> split
  · exact Int.floor_le_floor (by linarith)
  · linarith
  · rename_i hx hy
    have h1 : 0 ≤ ⌊-x + 1 / 2⌋ := Int.floor_nonneg.2 (by linarith)
    have h2 : 0 ≤ ⌊y + 1 / 2⌋ := Int.floor_nonneg.2 (by linarith)
    omega
  · exact neg_le_neg (Int.floor_le_floor (by linarith))

theorem val_ten_pow (p : Nat) : Exact.val (powi (ofInt 10) (p : Int) : F) = some ((10 : K) ^ p) := by
  have h := Exact.val_ofInt (F := F) (K := K) 10
  rw [Exact.val_powi h (Or.inl (by omega)), zpow_natCast]
  simp

theorem roundScalar_val (p : Nat) {a : F} {x : K} (ha : Exact.val a = some x) :
    Exact.val (Value.roundScalar a p) = some ((roundAway (x * 10 ^ p) : K) / 10 ^ p) := by
  unfold Value.roundScalar
  have hp := val_ten_pow (F := F) (K := K) p
  have h1 : Exact.val (round (mul a (powi (ofInt 10) (p : Int)))) = some (roundAway (x * 10 ^ p) : K) := by
    rw [Exact.val_round, Exact.val_mul ha hp]; rfl
  exact Exact.val_div h1 hp (by positivity)

theorem nearest (p : Nat) (x : K) : NearestDecimal p x ((roundAway (x * 10 ^ p) : K) / 10 ^ p) := by
  refine ⟨⟨_, rfl⟩, ?_⟩
  have hp : (0 : K) < 10 ^ p := by positivity
  have := roundAway_near (x * 10 ^ p)
  have he : (roundAway (x * 10 ^ p) : K) / 10 ^ p - x = ((roundAway (x * 10 ^ p) : K) - x * 10 ^ p) / 10 ^ p := by
    field_simp
  rw [he, abs_div, abs_of_pos hp, div_le_div_iff₀ hp (by positivity)]
  nlinarith

/-- C39: rounding a scalar yields a nearest multiple of 10^-p. -/
theorem C39_scalar {p : Nat} (h31 : p < 2 ^ 31) {v : Value F} {x : K} (h : IsScalar v x) : ∃ y, IsScalar (v.round p) y ∧ NearestDecimal p x y := by
  obtain ⟨a, rfl, ha⟩ := h
  rw [Value.round_small _ h31]
  exact ⟨_, ⟨_, rfl, roundScalar_val p ha⟩, nearest p x⟩

/-- C39: rounding a vector rounds every entry. -/
theorem C39_vector {p : Nat} (h31 : p < 2 ^ 31) {v : Value F} {n : Nat} {x : Fin n → K} (h : IsVector v x) :
    ∃ y, IsVector (v.round p) y ∧ ∀ i, NearestDecimal p (x i) (y i) := by
  replace h := isVector_iff.1 h; obtain ⟨l, rfl, hl⟩ := h
  rw [Value.round_small _ h31]
  exact ⟨_, isVector_iff.2 ⟨_, rfl, hl.map fun _ _ h => roundScalar_val p h⟩, fun i => nearest p (x i)⟩

/-- C39: rounding a matrix rounds every entry. -/
theorem C39_matrix {p : Nat} (h31 : p < 2 ^ 31) {v : Value F} {r c : Nat} {A : Matrix (Fin r) (Fin c) K} (h : IsMatrix v A) :
    ∃ B : Matrix (Fin r) (Fin c) K, IsMatrix (v.round p) B ∧ ∀ i j, NearestDecimal p (A i j) (B i j) := by
  replace h := isMatrix_iff.1 h; obtain ⟨l, rfl, hl⟩ := h
  rw [Value.round_small _ h31]
  exact ⟨_, isMatrix_iff.2 ⟨_, rfl, hl.map fun _ _ h => roundScalar_val p h⟩, fun i j => nearest p (A i j)⟩

/-- C39: rounding is monotone. -/
theorem C39_monotone {p : Nat} (h31 : p < 2 ^ 31) {v w : Value F} {x y x' y' : K} (hv : IsScalar v x) (hw : IsScalar w y) (h : x ≤ y)
    (hv' : IsScalar (v.round p) x') (hw' : IsScalar (w.round p) y') : x' ≤ y' := by
  rw [Value.round_small _ h31] at hv' hw'
  obtain ⟨a, rfl, ha⟩ := hv
  obtain ⟨b, rfl, hb⟩ := hw
  obtain ⟨a', h1, h2⟩ := hv'
  obtain ⟨b', h3, h4⟩ := hw'
  injection h1 with h1
  injection h3 with h3
  rw [← h1, roundScalar_val p ha] at h2
  rw [← h3, roundScalar_val p hb] at h4
  rw [← Option.some.inj h2, ← Option.some.inj h4]
  have hp : (0 : K) < 10 ^ p := by positivity
  have : roundAway (x * 10 ^ p) ≤ roundAway (y * 10 ^ p) := roundAway_mono (mul_le_mul_of_nonneg_right h hp.le)
  exact div_le_div_of_nonneg_right (by exact_mod_cast this) hp.le

/-- C39: rounding twice is rounding once. -/
theorem C39_idempotent {p : Nat} (h31 : p < 2 ^ 31) {v : Value F} {y : K} {x : K} (hv : IsScalar v x) (h : IsScalar (v.round p) y) :
    IsScalar ((v.round p).round p) y := by
  rw [Value.round_small _ h31] at h
  rw [Value.round_small _ h31, Value.round_small _ h31]
  obtain ⟨a, rfl, ha⟩ := hv
  obtain ⟨a', h1, h2⟩ := h
  injection h1 with h1
  rw [← h1, roundScalar_val p ha] at h2
  refine ⟨_, rfl, ?_⟩
  rw [roundScalar_val p (roundScalar_val p ha), ← h2, div_mul_cancel₀ _ (by positivity), roundAway_int]

/-- C39: there is one monotone, idempotent function from numbers to nearest decimals with which every entry of every value is rounded. -/
theorem C39_entrywise {p : Nat} (h31 : p < 2 ^ 31) : ∃ rd : K → K, Monotone rd ∧ (∀ x, rd (rd x) = rd x) ∧ (∀ x, NearestDecimal p x (rd x)) ∧
    (∀ (v : Value F) (x : K), IsScalar v x → IsScalar (v.round p) (rd x)) ∧
    (∀ (v : Value F) (n : Nat) (x : Fin n → K), IsVector v x → IsVector (v.round p) fun i => rd (x i)) ∧
    (∀ (v : Value F) (r c : Nat) (A : Matrix (Fin r) (Fin c) K), IsMatrix v A → IsMatrix (v.round p) (Matrix.of fun i j => rd (A i j))) := by
  have hp : (0 : K) < 10 ^ p := by positivity
  refine ⟨fun x => (roundAway (x * 10 ^ p) : K) / 10 ^ p, fun x y h => ?_, fun x => ?_, nearest p, ?_, ?_, ?_⟩
  · have : roundAway (x * 10 ^ p) ≤ roundAway (y * 10 ^ p) := roundAway_mono (mul_le_mul_of_nonneg_right h hp.le)
    exact div_le_div_of_nonneg_right (by exact_mod_cast this) hp.le
  · beta_reduce
    rw [div_mul_cancel₀ _ hp.ne', roundAway_int]
  · rintro v x ⟨a, rfl, ha⟩
    rw [Value.round_small _ h31]
    exact ⟨_, rfl, roundScalar_val p ha⟩
  · intro v n x h
    replace h := isVector_iff.1 h; obtain ⟨l, rfl, hl⟩ := h
    rw [Value.round_small _ h31]
    exact isVector_iff.2 ⟨_, rfl, hl.map fun _ _ h => roundScalar_val p h⟩
  · intro v r c A h
    replace h := isMatrix_iff.1 h; obtain ⟨l, rfl, hl⟩ := h
    rw [Value.round_small _ h31]
    exact isMatrix_iff.2 ⟨_, rfl, hl.map fun _ _ h => roundScalar_val p h⟩

/-- C39: only the lowest 32 bits of the precision count. -/
theorem C39_wraps {F : Type} [FArith F] (p k : Nat) (v : Value F) : v.round (p + 2 ^ 32 * k) = v.round p := by
  unfold Value.round asI32
  rw [Nat.add_mul_mod_self_left]

/-- C39: the precision `2^32 - k` is taken as `-k`: the number is rounded to a nearest multiple of `10^k`. -/
theorem C39_negative {k : Nat} (h1 : 1 ≤ k) (h2 : k ≤ 2 ^ 31) {v : Value F} {x : K} (h : IsScalar v x) :
    ∃ m : Int, IsScalar (v.round (2 ^ 32 - k)) (m * 10 ^ k : K) ∧ |(m * 10 ^ k : K) - x| ≤ 10 ^ k / 2 := by
  obtain ⟨a, rfl, ha⟩ := h
  have hq : asI32 (2 ^ 32 - k) = -(k : Int) := by
    unfold asI32
    rw [Nat.mod_eq_of_lt (by omega), if_neg (by omega)]
    omega
  have hp : (0 : K) < 10 ^ k := by positivity
  have h10 : Exact.val (powi (ofInt 10) (-(k : Int)) : F) = some (((10 : K) ^ k)⁻¹) := by
    have h : Exact.val (ofInt 10 : F) = some (10 : K) := by rw [Exact.val_ofInt]; norm_num
    rw [Exact.val_powi h (Or.inr (by norm_num)), zpow_neg, zpow_natCast]
  refine ⟨roundAway (x / 10 ^ k), ⟨Value.roundScalar a (-(k : Int)), ?_, ?_⟩, ?_⟩
  · unfold Value.round
    rw [hq]
    rfl
  · have h3 : Exact.val (round (mul a (powi (ofInt 10) (-(k : Int)))) : F) = some (roundAway (x / 10 ^ k) : K) := by
      rw [Exact.val_round, Exact.val_mul ha h10, ← div_eq_mul_inv]
      rfl
    unfold Value.roundScalar
    rw [Exact.val_div h3 h10 (inv_ne_zero hp.ne'), div_inv_eq_mul]
  · have := roundAway_near (x / 10 ^ k)
    have he : (roundAway (x / 10 ^ k) * 10 ^ k : K) - x = ((roundAway (x / 10 ^ k) : K) - x / 10 ^ k) * 10 ^ k := by
      field_simp
    rw [he, abs_mul, abs_of_pos hp]
    nlinarith

/-- C39: rounding a list of values keeps their number and order and rounds each of them. -/
theorem C39_values {F : Type} [FArith F] (p : Nat) (vs : List (Value F)) :
    List.Forall₂ (fun v w => w = v.round p) vs (valuesRound vs p) := by
  unfold valuesRound
  induction vs with
  | nil => exact .nil
  | cons v vs ih => exact .cons rfl ih

end exact

/-! ## Concrete cases -/

section examples

/-- A matrix of rationals. -/
def exA : Value Q := .matrix [[.fin 1, .fin 2, .fin 0], [.fin 0, .fin 1, .fin (1/2)], [.fin 4, .negZero, .fin 3]]
def exB : Value Q := .matrix [[.fin 2], [.fin 0], [.fin (-1)]]

theorem exA_is : IsMatrix exA (!![1, 2, 0; 0, 1, 1/2; 4, 0, 3] : Matrix (Fin 3) (Fin 3) ℚ) := ⟨_, rfl, by decide +kernel⟩
theorem exB_is : IsMatrix exB (!![2; 0; -1] : Matrix (Fin 3) (Fin 1) ℚ) := ⟨_, rfl, by decide +kernel⟩
theorem exV_is : IsVector (.vector [.fin 1, .fin 2, .fin 3] : Value Q) (![1, 2, 3] : Fin 3 → ℚ) := ⟨_, rfl, by decide +kernel⟩
theorem exS_is (n : Int) : IsScalar (.scalar (.fin n) : Value Q) (n : ℚ) := ⟨_, rfl, rfl⟩

example := C30_sum.2.2 _ _ _ _ exA_is exA_is
example := C30_difference.2.2 _ _ _ _ exA_is exA_is
example := C31_product exA_is exB_is
example := C31_apply exA_is exV_is
example := C31_associative exA_is exA_is exB_is exV_is
example := C32_divide (a := exA) (exS_is 2) (by norm_num)
example := (C32_scale (exS_is 2)).2.2 _ _ _ exA_is
example := C32_vector_quotient exV_is exV_is (by decide +kernel)
example := C34_laws exV_is exV_is
example := C37_power (k := 5) exA_is (by simpa using exS_is 5) (by norm_num)
example := C37_negative (k := 2) exA_is (by simpa using exS_is (-2))
example := C37_not_square (k := 2) (by decide) exB_is (by simpa using exS_is 2) (by norm_num)
example := C39_negative (k := 2) (by norm_num) (by norm_num) (v := (.scalar (.fin 1260) : Value Q)) (x := 1260) ⟨_, rfl, rfl⟩
example := C39_matrix (p := 0) (by norm_num) exA_is

/-- The determinant of the example, computed by the library's algorithm. -/
example : vDet exA = .ok (.scalar (.fin 7)) := by decide +kernel
example := C35_det exA_is

/-- C37: `[[2,0],[0,2]]^(-1)` is the identity, not the inverse. -/
theorem C37_inverse_power_false : vPow (.matrix [[.fin 2, .fin 0], [.fin 0, .fin 2]] : Value Q) (.scalar (.fin (-1))) =
    .ok (.matrix [[.fin 1, .fin 0], [.fin 0, .fin 1]]) := by decide +kernel

/-- C38: `-0` is not accepted as an index although it equals `0`. -/
theorem C38_negative_zero : letI := UTable.ascii
    (quickEval .default 20 "[7,8]?(0)".toList (Context.empty : Context Q)) = .ok [.scalar (.fin 7)] ∧
    (quickEval .default 20 "[7,8]?(-0)".toList (Context.empty : Context Q)) =
      .err (.evalError (.mathError "Index must be a positive Integer!")) := by decide +kernel

/-- C40: the table is exact: every accepted combination of kinds succeeds for some operands. -/
theorem C40_tight (op : SimpleOp) (j k : Kind) (h : accepts op j k = true) :
    ∃ (a b : Value Q) (vs : List (Value Q)), kind a = j ∧ kind b = k ∧ opTable op a b = .ok vs := by
  have hs : kind (.scalar (.fin 1) : Value Q) = .scalar := rfl
  have hv : kind (.vector [.fin 1] : Value Q) = .vector := rfl
  have hm : kind (.matrix [[.fin 1]] : Value Q) = .matrix := rfl
  have pick : ∀ j : Kind, ∃ a : Value Q, kind a = j ∧ a = (match j with
      | .scalar => .scalar (.fin 1) | .vector => .vector [.fin 1] | .matrix => .matrix [[.fin 1]]) := by
    intro j; cases j <;> exact ⟨_, rfl, rfl⟩
  obtain ⟨a, ha, hae⟩ := pick j
  -- an index has to be below the length
  by_cases hop : op = .get
  · subst hop
    cases j <;> cases k <;> first
      | exact Bool.noConfusion h
      | exact ⟨.vector [.fin 1], .scalar (.fin 0), [.scalar (.fin 1)], rfl, rfl, by decide +kernel⟩
  · obtain ⟨b, hb, hbe⟩ := pick k
    refine ⟨a, b, ?_⟩
    cases op <;> first
      | exact absurd rfl hop
      | (cases j <;> cases k <;> first
          | exact Bool.noConfusion h
          | (subst hae; subst hbe; exact ⟨_, rfl, rfl, rfl⟩)
          | (subst hae; subst hbe; exact ⟨[.matrix [[.fin 1]]], rfl, rfl, by decide +kernel⟩))

end examples
end MUL
