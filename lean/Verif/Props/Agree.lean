import Verif.Spec.Agree
import Verif.Props.Inverse
import Verif.Props.Linear
import Mathlib.LinearAlgebra.Matrix.ZPow
import Verif.Props.Grammar
/-!
# C103: two ways to compute the same thing agree (exact arithmetic); C111: lengths; C112: matrices as linear maps
-/

set_option linter.unusedSectionVars false

namespace MUL
open Out Spec FArith Matrix

section
variable {F : Type} [FNum F] {K : Type} [Field K] [LinearOrder K] [IsStrictOrderedRing K] [FloorRing K] [Exact F K] [UTable]
variable {cfg : Cfg} {ctx : Context F}

/-- The formula has one value. -/
private def Has1 (cfg : Cfg) (ctx : Context F) (e : Ex) (v : Value F) : Prop := Finishes (fun n => evalRec cfg n (e.tree cfg) ctx []) (.ok [v])

private theorem Has1.calc {e : Ex} {v : Value F} {s : String} (h : Has1 cfg ctx e v) (hwf : e.WF) (hs : s.toList = e.text) : Calculates cfg ctx s v := by
  unfold Calculates
  rw [hs]
  exact ((C29_eval cfg e.text ctx (C09_parse_text cfg e hwf)).1 [v]).1 h

private theorem simple_pure {cfg : Cfg} {op : SimpleOp} {l r : AST F} {ctx : Context F} {w : Str} {a b c : Value F}
    (hl : Finishes (fun n => evalRec cfg n l ctx w) (.ok [a])) (hr : Finishes (fun n => evalRec cfg n r ctx w) (.ok [b]))
    (h : opTable op a b = .ok [c]) : Finishes (fun n => evalRec cfg n (.simple op l r) ctx w) (.ok [c]) := by
  have := C19_results (op := op) hl hr (fun _ => [c]) (by
    intro p hp
    simp only [pairs, List.flatMap_cons, List.flatMap_nil, List.map_cons, List.map_nil, List.append_nil, List.mem_singleton] at hp
    subst hp
    exact h)
  simpa [pairs] using this

private theorem one_scalar (s : F) : Finishes (fun n => evalRec cfg n (.scalar s) ctx []) (.ok [.scalar s]) := ⟨by simp, 1, rfl⟩

private theorem one_var {x : Str} {v : Value F} (h : ctx.findVar x = some [v]) : Has1 cfg ctx (.var x) v :=
  ⟨by simp, 1, by simp only [Ex.tree, evalRec, h]⟩

private theorem one_paren {e : Ex} {v : Value F} (h : Has1 cfg ctx e v) : Has1 cfg ctx (.paren e) v :=
  simple_pure (op := .parenths) h (one_scalar (FArith.ofInt 0)) rfl

private theorem one_fn {e : Ex} {n : Str} {op : SimpleOp} {v w : Value F} (h : Has1 cfg ctx e v)
    (ho : ∀ b, opTable op v b = .ok [w]) : Has1 cfg ctx (.fn n op e) w :=
  simple_pure (op := op) h (one_scalar (FArith.ofInt 0)) (ho _)

private theorem one_bin {a b : Ex} {op : BinOp} {v w u : Value F} (ha : Has1 cfg ctx a v) (hb : Has1 cfg ctx b w)
    (ho : opTable op.op v w = .ok [u]) : Has1 cfg ctx (.bin op a b) u :=
  simple_pure ha hb ho

private theorem wfA : (Ex.var "A".toList).WF := wf_name (n := "A") (by decide)
private theorem wfB : (Ex.var "B".toList).WF := wf_name (n := "B") (by decide)
private theorem wfm : (Ex.var "m".toList).WF := wf_name (n := "m") (by decide)
private theorem wfn : (Ex.var "n".toList).WF := wf_name (n := "n") (by decide)
private theorem wfu : (Ex.var "u".toList).WF := wf_name (n := "u") (by decide)
private theorem wfv : (Ex.var "v".toList).WF := wf_name (n := "v") (by decide)
private theorem wfw : (Ex.var "w".toList).WF := wf_name (n := "w") (by decide)
private theorem wfb : (Ex.var "b".toList).WF := wf_name (n := "b") (by decide)
private theorem wfx : (Ex.var "x".toList).WF := wf_name (n := "x") (by decide)
private theorem wfInv {e : Ex} (h : e.WF) : (Ex.fn "inv".toList .inv e).WF := ⟨by decide, h⟩
private theorem wfDet {e : Ex} (h : e.WF) : (Ex.fn "det".toList .det e).WF := ⟨by decide, h⟩

private theorem inv_calc {a : Value F} {n : Nat} {A : Matrix (Fin (n + 1)) (Fin (n + 1)) K} (ha : IsMatrix a A) (h : LeadingMinors A) :
    ∃ v, vInv a = .ok v ∧ IsMatrix v A⁻¹ := by
  obtain ⟨v, B, h1, h2⟩ := (C36_finite_iff ha).2 h
  have := (C36_inverse ha h1 h2).1
  rw [Matrix.inv_eq_left_inv this]
  exact ⟨v, h1, h2⟩

private theorem minors_det {n : Nat} {A : Matrix (Fin n) (Fin n) K} (h : LeadingMinors A) : A.det ≠ 0 := by
  have := h n le_rfl
  exact this

private theorem one_inv {e : Ex} {v w : Value F} (h : Has1 cfg ctx e v) (ho : vInv v = .ok w) : Has1 cfg ctx (.fn "inv".toList .inv e) w :=
  one_fn h fun b => by simp only [opTable, ho, ok_bind]
private theorem one_det {e : Ex} {v w : Value F} (h : Has1 cfg ctx e v) (ho : vDet v = .ok w) : Has1 cfg ctx (.fn "det".toList .det e) w :=
  one_fn h fun b => by simp only [opTable, ho, ok_bind]
private theorem one_mult {a b : Ex} {v w u : Value F} (ha : Has1 cfg ctx a v) (hb : Has1 cfg ctx b w) (ho : vMult v w = .ok u) : Has1 cfg ctx (.bin .mult a b) u :=
  one_bin ha hb (by simp only [BinOp.op, opTable, ho, ok_bind])
private theorem one_quot {a b : Ex} {v w u : Value F} (ha : Has1 cfg ctx a v) (hb : Has1 cfg ctx b w) (ho : vDiv v w = .ok u) : Has1 cfg ctx (.bin .div a b) u :=
  one_bin ha hb (by simp only [BinOp.op, opTable, ho, ok_bind])
private theorem one_pow {a b : Ex} {v w u : Value F} (ha : Has1 cfg ctx a v) (hb : Has1 cfg ctx b w) (ho : vPow v w = .ok u) : Has1 cfg ctx (.bin .pow a b) u :=
  one_bin ha hb (by simp only [BinOp.op, opTable, ho, ok_bind])
private theorem one_add {a b : Ex} {v w u : Value F} (ha : Has1 cfg ctx a v) (hb : Has1 cfg ctx b w) (ho : vAdd v w = .ok u) : Has1 cfg ctx (.bin .add a b) u :=
  one_bin ha hb (by simp only [BinOp.op, opTable, ho, ok_bind])
private theorem one_sub {a b : Ex} {v w u : Value F} (ha : Has1 cfg ctx a v) (hb : Has1 cfg ctx b w) (ho : vSub v w = .ok u) : Has1 cfg ctx (.bin .sub a b) u :=
  one_bin ha hb (by simp only [BinOp.op, opTable, ho, ok_bind])
private theorem one_cross {a b : Ex} {v w u : Value F} (ha : Has1 cfg ctx a v) (hb : Has1 cfg ctx b w) (ho : vCross v w = .ok u) : Has1 cfg ctx (.bin .cross a b) u :=
  one_bin ha hb (by simp only [BinOp.op, opTable, ho, ok_bind])

/-! ## Inverses -/

/-- **C103**: the inverse of a product is the product of the inverses in the opposite order. -/
theorem C103_inverse_product {a b : Value F} {n : Nat} {A B : Matrix (Fin (n + 1)) (Fin (n + 1)) K}
    (hA : ctx.findVar "A".toList = some [a]) (hB : ctx.findVar "B".toList = some [b]) (ha : IsMatrix a A) (hb : IsMatrix b B)
    (mA : LeadingMinors A) (mB : LeadingMinors B) (mAB : LeadingMinors (A * B)) :
    Agree K cfg ctx "inv(A*B)" "inv(B)*inv(A)" := by
  obtain ⟨ai, h1, h2⟩ := inv_calc ha mA
  obtain ⟨bi, h3, h4⟩ := inv_calc hb mB
  obtain ⟨p, h5, h6⟩ := C31_product ha hb
  obtain ⟨v, h7, h8⟩ := inv_calc h6 mAB
  obtain ⟨w, h9, h10⟩ := C31_product h4 h2
  refine ⟨v, w, (one_inv (one_mult (one_var hA) (one_var hB) h5) h7).calc (wfInv ⟨wfA, wfB, by decide, by decide, nofun⟩) (by decide),
    (one_mult (one_inv (one_var hB) h3) (one_inv (one_var hA) h1) h9).calc ⟨wfInv wfB, wfInv wfA, by decide, by decide, nofun⟩ (by decide),
    .matrix _ h8 ?_⟩
  rw [Matrix.mul_inv_rev]
  exact h10

/-- **C103**: inverting twice gives the matrix back. -/
theorem C103_inverse_twice {a : Value F} {n : Nat} {A : Matrix (Fin (n + 1)) (Fin (n + 1)) K}
    (hA : ctx.findVar "A".toList = some [a]) (ha : IsMatrix a A) (mA : LeadingMinors A) (mi : LeadingMinors A⁻¹) :
    Agree K cfg ctx "inv(inv(A))" "A" := by
  obtain ⟨ai, h1, h2⟩ := inv_calc ha mA
  obtain ⟨v, h3, h4⟩ := inv_calc h2 mi
  rw [Matrix.nonsing_inv_nonsing_inv _ (isUnit_iff_ne_zero.2 (minors_det mA))] at h4
  exact ⟨v, a, (one_inv (one_inv (one_var hA) h1) h3).calc (wfInv (wfInv wfA)) (by decide), (one_var hA).calc wfA (by decide), .matrix _ h4 ha⟩

/-- **C103**: the determinant of the inverse is the reciprocal of the determinant. -/
theorem C103_inverse_det {a : Value F} {n : Nat} {A : Matrix (Fin (n + 1)) (Fin (n + 1)) K}
    (hA : ctx.findVar "A".toList = some [a]) (ha : IsMatrix a A) (mA : LeadingMinors A) :
    Agree K cfg ctx "det(inv(A))" "1/det(A)" := by
  obtain ⟨ai, h1, h2⟩ := inv_calc ha mA
  obtain ⟨v, h3, h4⟩ := C35_det h2
  obtain ⟨d, h5, h6⟩ := C35_det ha
  have h1' : IsScalar (Value.scalar (FArith.ofDec (digitsVal "1".toList) 0 : F)) (1 : K) := ⟨_, rfl, by
    rw [Exact.val_ofDec, show digitsVal "1".toList = 1 from by decide]
    norm_num⟩
  obtain ⟨q, h7, h8⟩ := (C32_divide h6 (minors_det mA)).1 1 h1'
  rw [Matrix.det_nonsing_inv, Ring.inverse_eq_inv', ← _root_.one_div] at h4
  exact ⟨v, q, (one_det (one_inv (one_var hA) h1) h3).calc (wfDet (wfInv wfA)) (by decide),
    (one_quot (a := .num "1".toList none) ⟨by simp, 1, rfl⟩ (one_det (one_var hA) h5) h7).calc ⟨wf_num (s := "1") (by decide), wfDet wfA, by decide, by decide, nofun⟩ (by decide), .scalar _ h4 h8⟩

/-! ## Powers -/

/-- **C103**: powers of a matrix with the same base are multiplied by adding the exponents. -/
theorem C103_powers_product {a s t : Value F} {d j k : Nat} {A : Matrix (Fin (d + 1)) (Fin (d + 1)) K}
    (hA : ctx.findVar "A".toList = some [a]) (hm : ctx.findVar "m".toList = some [s]) (hn : ctx.findVar "n".toList = some [t])
    (ha : IsMatrix a A) (hs : IsScalar s (j : K)) (ht : IsScalar t (k : K)) (hjk : j + k < 2 ^ 31) :
    Agree K cfg ctx "A^m*A^n" "A^(m+n)" := by
  obtain ⟨p, h1, h2⟩ := C37_power ha hs (by omega)
  obtain ⟨q, h3, h4⟩ := C37_power ha ht (by omega)
  obtain ⟨v, h5, h6⟩ := C31_product h2 h4
  obtain ⟨e, h7, h8⟩ := C30_sum.1 _ _ hs ht
  rw [← Nat.cast_add] at h8
  obtain ⟨w, h9, h10⟩ := C37_power ha h8 hjk
  rw [← pow_add] at h6
  exact ⟨v, w, (one_mult (one_pow (one_var hA) (one_var hm) h1) (one_pow (one_var hA) (one_var hn) h3) h5).calc
      ⟨⟨wfA, wfm, by decide, by decide, nofun⟩, ⟨wfA, wfn, by decide, by decide, nofun⟩, by decide, by decide, nofun⟩ (by decide),
    (one_pow (one_var hA) (one_paren (one_add (one_var hm) (one_var hn) h7)) h9).calc
      ⟨wfA, ⟨wfm, wfn, by decide, by decide, nofun⟩, by decide, by decide, nofun⟩ (by decide), .matrix _ h6 h10⟩

/-- **C103**: a power of a power multiplies the exponents. -/
theorem C103_powers_power {a s t : Value F} {d j k : Nat} {A : Matrix (Fin (d + 1)) (Fin (d + 1)) K}
    (hA : ctx.findVar "A".toList = some [a]) (hm : ctx.findVar "m".toList = some [s]) (hn : ctx.findVar "n".toList = some [t])
    (ha : IsMatrix a A) (hs : IsScalar s (j : K)) (ht : IsScalar t (k : K)) (hj : j < 2 ^ 31) (hk : k < 2 ^ 31) (hjk : j * k < 2 ^ 31) :
    Agree K cfg ctx "(A^m)^n" "A^(m*n)" := by
  obtain ⟨p, h1, h2⟩ := C37_power ha hs hj
  obtain ⟨v, h3, h4⟩ := C37_power h2 ht hk
  obtain ⟨e, h7, h8⟩ := (C32_scale hs).1 _ ht
  rw [← Nat.cast_mul] at h8
  obtain ⟨w, h9, h10⟩ := C37_power ha h8 hjk
  rw [← pow_mul] at h4
  exact ⟨v, w, (one_pow (one_paren (one_pow (one_var hA) (one_var hm) h1)) (one_var hn) h3).calc
      ⟨⟨wfA, wfm, by decide, by decide, nofun⟩, wfn, by decide, by decide, nofun⟩ (by decide),
    (one_pow (one_var hA) (one_paren (one_mult (one_var hm) (one_var hn) h7)) h9).calc
      ⟨wfA, ⟨wfm, wfn, by decide, by decide, nofun⟩, by decide, by decide, nofun⟩ (by decide), .matrix _ h4 h10⟩

/-- **C103**: the determinant of a power is the power of the determinant. -/
theorem C103_powers_det {a t : Value F} {d k : Nat} {A : Matrix (Fin (d + 1)) (Fin (d + 1)) K}
    (hA : ctx.findVar "A".toList = some [a]) (hn : ctx.findVar "n".toList = some [t])
    (ha : IsMatrix a A) (ht : IsScalar t (k : K)) (hk : k < 2 ^ 31) : ∃ v, Calculates cfg ctx "det(A^n)" v ∧ IsScalar v (A.det ^ k) := by
  obtain ⟨p, h1, h2⟩ := C37_power ha ht hk
  obtain ⟨v, h3, h4⟩ := C35_det h2
  rw [Matrix.det_pow] at h4
  exact ⟨v, (one_det (one_pow (one_var hA) (one_var hn) h1) h3).calc (wfDet ⟨wfA, wfn, by decide, by decide, nofun⟩) (by decide), h4⟩

/-- **C103**: the power of the inverse is the inverse of the power. -/
theorem C103_powers_inverse {a t : Value F} {d k : Nat} {A : Matrix (Fin (d + 1)) (Fin (d + 1)) K}
    (hA : ctx.findVar "A".toList = some [a]) (hn : ctx.findVar "n".toList = some [t])
    (ha : IsMatrix a A) (ht : IsScalar t (k : K)) (hk : k < 2 ^ 31) (mA : LeadingMinors A) (mp : LeadingMinors (A ^ k)) :
    Agree K cfg ctx "inv(A)^n" "inv(A^n)" := by
  obtain ⟨ai, h1, h2⟩ := inv_calc ha mA
  obtain ⟨v, h3, h4⟩ := C37_power h2 ht hk
  obtain ⟨p, h5, h6⟩ := C37_power ha ht hk
  obtain ⟨w, h7, h8⟩ := inv_calc h6 mp
  rw [← Matrix.inv_pow'] at h8
  exact ⟨v, w, (one_pow (one_inv (one_var hA) h1) (one_var hn) h3).calc ⟨wfInv wfA, wfn, by decide, by decide, nofun⟩ (by decide),
    (one_inv (one_pow (one_var hA) (one_var hn) h5) h7).calc (wfInv ⟨wfA, wfn, by decide, by decide, nofun⟩) (by decide), .matrix _ h4 h8⟩

/-! ## Vectors in space -/

private theorem fill_self (x : Fin 3 → K) : fill3 x = x := by
  funext i
  simp [fill3]

/-- **C103**: the triple product of three vectors is the determinant of the matrix with these rows. -/
theorem C103_triple {a b c m : Value F} {x y z : Fin 3 → K}
    (hu : ctx.findVar "u".toList = some [a]) (hv : ctx.findVar "v".toList = some [b]) (hw : ctx.findVar "w".toList = some [c])
    (hA : ctx.findVar "A".toList = some [m])
    (ha : IsVector a x) (hb : IsVector b y) (hc : IsVector c z) (hm : IsMatrix m (Matrix.of ![x, y, z])) :
    Agree K cfg ctx "u*(v#w)" "det(A)" := by
  obtain ⟨p, h1, h2⟩ := C34_cross le_rfl hb hc
  obtain ⟨v, h3, h4⟩ := C33_dot ha h2
  obtain ⟨w, h5, h6⟩ := C35_det hm
  rw [fill_self, fill_self, triple_product_eq_det] at h4
  exact ⟨v, w, (one_mult (one_var hu) (one_paren (one_cross (one_var hv) (one_var hw) h1)) h3).calc
      ⟨wfu, ⟨wfv, wfw, by decide, by decide, nofun⟩, by decide, by decide, nofun⟩ (by decide),
    (one_det (one_var hA) h5).calc (wfDet wfA) (by decide), .scalar _ h4 h6⟩

/-- **C103**: Lagrange's identity for the cross product. -/
theorem C103_lagrange {a b : Value F} {x y : Fin 3 → K}
    (hu : ctx.findVar "u".toList = some [a]) (hv : ctx.findVar "v".toList = some [b]) (ha : IsVector a x) (hb : IsVector b y) :
    Agree K cfg ctx "(u#v)*(u#v)" "(u*u)*(v*v)-(u*v)*(u*v)" := by
  obtain ⟨p, h1, h2⟩ := C34_cross le_rfl ha hb
  obtain ⟨v, h3, h4⟩ := C33_dot h2 h2
  obtain ⟨uu, h5, h6⟩ := C33_dot ha ha
  obtain ⟨vv, h7, h8⟩ := C33_dot hb hb
  obtain ⟨uv, h9, h10⟩ := C33_dot ha hb
  obtain ⟨l, h11, h12⟩ := (C32_scale h6).1 _ h8
  obtain ⟨r, h13, h14⟩ := (C32_scale h10).1 _ h10
  obtain ⟨w, h15, h16⟩ := C30_difference.1 _ _ h12 h14
  rw [fill_self, fill_self, cross_dot_cross, dotProduct_comm y x] at h4
  have c1 := one_paren (one_cross (cfg := cfg) (one_var hu) (one_var hv) h1)
  have c2 := one_paren (one_mult (cfg := cfg) (one_var hu) (one_var hu) h5)
  have c3 := one_paren (one_mult (cfg := cfg) (one_var hv) (one_var hv) h7)
  have c4 := one_paren (one_mult (cfg := cfg) (one_var hu) (one_var hv) h9)
  exact ⟨v, w, (one_mult c1 c1 h3).calc
      ⟨⟨wfu, wfv, by decide, by decide, nofun⟩, ⟨wfu, wfv, by decide, by decide, nofun⟩, by decide, by decide, nofun⟩ (by decide),
    (one_sub (one_mult c2 c3 h11) (one_mult c4 c4 h13) h15).calc
      ⟨⟨⟨wfu, wfu, by decide, by decide, nofun⟩, ⟨wfv, wfv, by decide, by decide, nofun⟩, by decide, by decide, nofun⟩,
       ⟨⟨wfu, wfv, by decide, by decide, nofun⟩, ⟨wfu, wfv, by decide, by decide, nofun⟩, by decide, by decide, nofun⟩, by decide, by decide, nofun⟩ (by decide),
    .scalar _ h4 h16⟩

/-! ## Linear maps -/

/-- **C112**: a matrix times a sum of vectors is the sum of the products. -/
theorem C112_sum {a b c : Value F} {r n : Nat} {A : Matrix (Fin (r + 1)) (Fin n) K} {x y : Fin n → K}
    (hA : ctx.findVar "A".toList = some [a]) (hu : ctx.findVar "u".toList = some [b]) (hv : ctx.findVar "v".toList = some [c])
    (ha : IsMatrix a A) (hb : IsVector b x) (hc : IsVector c y) : Agree K cfg ctx "A*(u+v)" "A*u+A*v" := by
  obtain ⟨s, h1, h2⟩ := C30_sum.2.1 n x y hb hc
  obtain ⟨w1, h3, h4⟩ := C31_apply ha h2
  obtain ⟨w2, h5, h6⟩ := C31_apply ha hb
  obtain ⟨w3, h7, h8⟩ := C31_apply ha hc
  obtain ⟨w4, h9, h10⟩ := C30_sum.2.1 _ _ _ h6 h8
  rw [Matrix.mulVec_add] at h4
  exact ⟨w1, w4, (one_mult (one_var hA) (one_paren (one_add (one_var hu) (one_var hv) h1)) h3).calc
      ⟨wfA, ⟨wfu, wfv, by decide, by decide, nofun⟩, by decide, by decide, nofun⟩ (by decide),
    (one_add (one_mult (one_var hA) (one_var hu) h5) (one_mult (one_var hA) (one_var hv) h7) h9).calc
      ⟨⟨wfA, wfu, by decide, by decide, nofun⟩, ⟨wfA, wfv, by decide, by decide, nofun⟩, by decide, by decide, nofun⟩ (by decide),
    .vector _ h4 h10⟩

/-- **C112**: a matrix times a multiple of a vector is the multiple of the product. -/
theorem C112_multiple {a b c : Value F} {r n : Nat} {A : Matrix (Fin (r + 1)) (Fin n) K} {t : K} {y : Fin n → K}
    (hA : ctx.findVar "A".toList = some [a]) (hx : ctx.findVar "x".toList = some [b]) (hv : ctx.findVar "v".toList = some [c])
    (ha : IsMatrix a A) (hb : IsScalar b t) (hc : IsVector c y) : Agree K cfg ctx "A*(x*v)" "x*(A*v)" := by
  obtain ⟨s, h1, h2⟩ := (C32_scale hb).2.1 n y hc
  obtain ⟨w1, h3, h4⟩ := C31_apply ha h2
  obtain ⟨w2, h5, h6⟩ := C31_apply ha hc
  obtain ⟨w3, h7, h8⟩ := (C32_scale hb).2.1 _ _ h6
  rw [Matrix.mulVec_smul] at h4
  exact ⟨w1, w3, (one_mult (one_var hA) (one_paren (one_mult (one_var hx) (one_var hv) h1)) h3).calc
      ⟨wfA, ⟨wfx, wfv, by decide, by decide, nofun⟩, by decide, by decide, nofun⟩ (by decide),
    (one_mult (one_var hx) (one_paren (one_mult (one_var hA) (one_var hv) h5)) h7).calc
      ⟨wfx, ⟨wfA, wfv, by decide, by decide, nofun⟩, by decide, by decide, nofun⟩ (by decide),
    .vector _ h4 h8⟩

/-- **C112**: a sum of matrices times a vector is the sum of the products. -/
theorem C112_matrices {a b c : Value F} {r n : Nat} {A B : Matrix (Fin (r + 1)) (Fin n) K} {y : Fin n → K}
    (hA : ctx.findVar "A".toList = some [a]) (hB : ctx.findVar "B".toList = some [b]) (hv : ctx.findVar "v".toList = some [c])
    (ha : IsMatrix a A) (hb : IsMatrix b B) (hc : IsVector c y) : Agree K cfg ctx "(A+B)*v" "A*v+B*v" := by
  obtain ⟨s, h1, h2⟩ := C30_sum.2.2 r n A B ha hb
  obtain ⟨w1, h3, h4⟩ := C31_apply h2 hc
  obtain ⟨w2, h5, h6⟩ := C31_apply ha hc
  obtain ⟨w3, h7, h8⟩ := C31_apply hb hc
  obtain ⟨w4, h9, h10⟩ := C30_sum.2.1 _ _ _ h6 h8
  rw [Matrix.add_mulVec] at h4
  exact ⟨w1, w4, (one_mult (one_paren (one_add (one_var hA) (one_var hB) h1)) (one_var hv) h3).calc
      ⟨⟨wfA, wfB, by decide, by decide, nofun⟩, wfv, by decide, by decide, nofun⟩ (by decide),
    (one_add (one_mult (one_var hA) (one_var hv) h5) (one_mult (one_var hB) (one_var hv) h7) h9).calc
      ⟨⟨wfA, wfv, by decide, by decide, nofun⟩, ⟨wfB, wfv, by decide, by decide, nofun⟩, by decide, by decide, nofun⟩ (by decide),
    .vector _ h4 h10⟩

/-- **C112**: a product of matrices acts as the second one followed by the first one. -/
theorem C112_composed {a b c : Value F} {p r n : Nat} {A : Matrix (Fin (p + 1)) (Fin (r + 1)) K} {B : Matrix (Fin (r + 1)) (Fin n) K} {y : Fin n → K}
    (hA : ctx.findVar "A".toList = some [a]) (hB : ctx.findVar "B".toList = some [b]) (hv : ctx.findVar "v".toList = some [c])
    (ha : IsMatrix a A) (hb : IsMatrix b B) (hc : IsVector c y) : Agree K cfg ctx "(A*B)*v" "A*(B*v)" := by
  obtain ⟨s, h1, h2⟩ := C31_product ha hb
  obtain ⟨w1, h3, h4⟩ := C31_apply h2 hc
  obtain ⟨w2, h5, h6⟩ := C31_apply hb hc
  obtain ⟨w3, h7, h8⟩ := C31_apply ha h6
  rw [Matrix.mulVec_mulVec] at h8
  exact ⟨w1, w3, (one_mult (one_paren (one_mult (one_var hA) (one_var hB) h1)) (one_var hv) h3).calc
      ⟨⟨wfA, wfB, by decide, by decide, nofun⟩, wfv, by decide, by decide, nofun⟩ (by decide),
    (one_mult (one_var hA) (one_paren (one_mult (one_var hB) (one_var hv) h5)) h7).calc
      ⟨wfA, ⟨wfB, wfv, by decide, by decide, nofun⟩, by decide, by decide, nofun⟩ (by decide),
    .vector _ h4 h8⟩

/-- **C112**: the determinant of a product is the product of the determinants. -/
theorem C112_det {a b : Value F} {n : Nat} {A B : Matrix (Fin (n + 1)) (Fin (n + 1)) K}
    (hA : ctx.findVar "A".toList = some [a]) (hB : ctx.findVar "B".toList = some [b]) (ha : IsMatrix a A) (hb : IsMatrix b B) :
    Agree K cfg ctx "det(A*B)" "det(A)*det(B)" := by
  obtain ⟨s, h1, h2⟩ := C31_product ha hb
  obtain ⟨w1, h3, h4⟩ := C35_det h2
  obtain ⟨w2, h5, h6⟩ := C35_det ha
  obtain ⟨w3, h7, h8⟩ := C35_det hb
  obtain ⟨w4, h9, h10⟩ := (C32_scale h6).1 _ h8
  rw [Matrix.det_mul] at h4
  exact ⟨w1, w4, (one_det (one_mult (one_var hA) (one_var hB) h1) h3).calc (wfDet ⟨wfA, wfB, by decide, by decide, nofun⟩) (by decide),
    (one_mult (one_det (one_var hA) h5) (one_det (one_var hB) h7) h9).calc ⟨wfDet wfA, wfDet wfB, by decide, by decide, nofun⟩ (by decide),
    .scalar _ h4 h10⟩

end

/-! ## Elementary functions and equations -/

section
variable {F : Type} [FNum F] [ExactReal F] [UTable] {cfg : Cfg} {ctx : Context F}

private theorem one_sqrt {e : Ex} {v w : Value F} (h : Has1 cfg ctx e v) (ho : vSqrt v = .ok w) : Has1 cfg ctx (.fn "sqrt".toList .sqrt e) w :=
  one_fn h fun b => by simp only [opTable, ho, ok_bind]
private theorem one_abs {e : Ex} {v w : Value F} (h : Has1 cfg ctx e v) (ho : vAbs v = .ok w) : Has1 cfg ctx (.fn "abs".toList .abs e) w :=
  one_fn h fun b => by simp only [opTable, ho, ok_bind]
private theorem one_sin {e : Ex} {v w : Value F} (h : Has1 cfg ctx e v) (ho : vSin v = .ok w) : Has1 cfg ctx (.fn "sin".toList .sin e) w :=
  one_fn h fun b => by simp only [opTable, ho, ok_bind]
private theorem one_cos {e : Ex} {v w : Value F} (h : Has1 cfg ctx e v) (ho : vCos v = .ok w) : Has1 cfg ctx (.fn "cos".toList .cos e) w :=
  one_fn h fun b => by simp only [opTable, ho, ok_bind]
private theorem one_tan {e : Ex} {v w : Value F} (h : Has1 cfg ctx e v) (ho : vTan v = .ok w) : Has1 cfg ctx (.fn "tan".toList .tan e) w :=
  one_fn h fun b => by simp only [opTable, ho, ok_bind]

private theorem two_val : IsScalar (Value.scalar (FArith.ofDec (digitsVal "2".toList) 0 : F)) (2 : ℝ) := ⟨_, rfl, by
  rw [Exact.val_ofDec, show digitsVal "2".toList = 2 from by decide]
  norm_num⟩

/-- **C103**: the length of a vector is the root of its product with itself. -/
theorem C103_length {a : Value F} {n : Nat} {x : Fin n → ℝ} (hv : ctx.findVar "v".toList = some [a]) (ha : IsVector a x) :
    Agree ℝ cfg ctx "abs(v)" "sqrt(v*v)" := by
  obtain ⟨s, h1, h2⟩ := C33_abs_vector ha
  obtain ⟨p, h3, q, rfl, h5⟩ := C33_dot ha ha
  have hpos : 0 ≤ x ⬝ᵥ x := Finset.sum_nonneg fun i _ => mul_self_nonneg _
  exact ⟨_, _, (one_abs (one_var hv) h2).calc ⟨by decide, wfv⟩ (by decide),
    (one_sqrt (one_mult (one_var hv) (one_var hv) h3) rfl).calc ⟨by decide, wfv, wfv, by decide, by decide, nofun⟩ (by decide),
    .scalar _ ⟨_, rfl, ExactReal.val_sqrt h1 hpos⟩ ⟨_, rfl, ExactReal.val_sqrt h5 hpos⟩⟩

/-- **C103**: the second root is the square root. -/
theorem C103_root {a : Value F} {x : ℝ} (hx : ctx.findVar "x".toList = some [a]) (ha : IsScalar a x) (h0 : 0 ≤ x) :
    Agree ℝ cfg ctx "root(x,2)" "sqrt(x)" := by
  obtain ⟨a, rfl, ha⟩ := ha
  obtain ⟨t, ht, h2⟩ := two_val (F := F)
  cases ht
  have h3 : Exact.val (FArith.div (FArith.ofInt 1) (FArith.ofDec (digitsVal "2".toList) 0 : F)) = some ((1 : ℝ) / 2) :=
    Exact.val_div val_one h2 (by norm_num)
  have h4 : Exact.val (FElem.powf a (FArith.div (FArith.ofInt 1) (FArith.ofDec (digitsVal "2".toList) 0 : F))) = some (Real.sqrt x) := by
    rw [Real.sqrt_eq_rpow]
    refine ExactReal.val_powf ha h3 ?_
    rcases h0.lt_or_eq with h | h
    · exact Or.inl h
    · exact Or.inr ⟨h.symm, by norm_num⟩
  refine ⟨_, _, Has1.calc (e := .root (.var "x".toList) (.num "2".toList none)) (simple_pure (op := .root) (one_var hx) (one_scalar _) rfl) ⟨wfx, wf_num (s := "2") (by decide)⟩ (by decide),
    (one_sqrt (one_var hx) rfl).calc ⟨by decide, wfx⟩ (by decide), .scalar (Real.sqrt x) ⟨_, rfl, h4⟩ ⟨_, rfl, ExactReal.val_sqrt ha h0⟩⟩

/-- **C103**: the tangent is the quotient of sine and cosine, and the sum of their squares is one. -/
theorem C103_trigonometry {a : Value F} {x : ℝ} (hx : ctx.findVar "x".toList = some [a]) (ha : IsScalar a x) :
    (Real.cos x ≠ 0 → Agree ℝ cfg ctx "tan(x)" "sin(x)/cos(x)") ∧ Agree ℝ cfg ctx "sin(x)^2+cos(x)^2" "1" := by
  obtain ⟨a, rfl, ha⟩ := ha
  have hs : Exact.val (FElem.sin a) = some (Real.sin x) := by rw [ExactReal.val_sin, ha]; rfl
  have hc : Exact.val (FElem.cos a) = some (Real.cos x) := by rw [ExactReal.val_cos, ha]; rfl
  obtain ⟨t, ht, h2⟩ := two_val (F := F)
  cases ht
  constructor
  · intro h0
    refine ⟨_, _, (one_tan (one_var hx) rfl).calc ⟨by decide, wfx⟩ (by decide),
      (one_quot (one_sin (one_var hx) rfl) (one_cos (one_var hx) rfl) rfl).calc ⟨⟨by decide, wfx⟩, ⟨by decide, wfx⟩, by decide, by decide, nofun⟩ (by decide),
      .scalar (Real.tan x) ⟨_, rfl, ExactReal.val_tan ha h0⟩ ⟨_, rfl, ?_⟩⟩
    rw [Real.tan_eq_sin_div_cos]
    exact Exact.val_div hs hc h0
  · have p2 : ∀ (b : F) (y : ℝ), Exact.val b = some y → Exact.val (FElem.powf b (FArith.ofDec (digitsVal "2".toList) 0 : F)) = some (y ^ (2 : Int)) :=
      fun b y hb => ExactReal.val_powf_int (n := 2) hb (by rw [h2]; norm_num) (Or.inl (by norm_num))
    have h1 : Exact.val (FArith.ofDec (digitsVal "1".toList) 0 : F) = some (1 : ℝ) := by
      rw [Exact.val_ofDec, show digitsVal "1".toList = 1 from by decide]
      norm_num
    refine ⟨_, _, (one_add (one_pow (b := .num "2".toList none) (one_sin (one_var hx) rfl) (one_scalar _) rfl) (one_pow (b := .num "2".toList none) (one_cos (one_var hx) rfl) (one_scalar _) rfl) rfl).calc
        ⟨⟨⟨by decide, wfx⟩, wf_num (s := "2") (by decide), by decide, by decide, nofun⟩, ⟨⟨by decide, wfx⟩, wf_num (s := "2") (by decide), by decide, by decide, nofun⟩, by decide, by decide, nofun⟩ (by decide),
      Has1.calc (e := .num "1".toList none) (one_scalar _) (wf_num (s := "1") (by decide)) (by decide),
      .scalar 1 ⟨_, rfl, ?_⟩ ⟨_, rfl, h1⟩⟩
    have := Exact.val_add (p2 _ _ hs) (p2 _ _ hc)
    rw [zpow_ofNat, zpow_ofNat, Real.sin_sq_add_cos_sq] at this
    exact this

/-- **C103**: solving a linear system with `eq` and multiplying its right side by the inverse of the matrix give the same numbers. -/
theorem C103_system (cfg : Cfg) (ctx : Context F) (eqs : List (AST F × AST F)) (names : List Str) {n : Nat} {a r : Value F}
    (A : Matrix (Fin (n + 1)) (Fin (n + 1)) ℝ) (b : Fin (n + 1) → ℝ)
    (heqs : eqs.length = n + 1) (hnames : names.length = n + 1) (hnodup : names.Nodup)
    (hfresh : ∀ x ∈ names, ∀ v ∈ ctx.vars, v.name ≠ x)
    (hlin : LinearEquations cfg ctx eqs names A b) (hminors : LeadingMinors A)
    (hstart : ∀ j : Int, -1000 ≤ j → j < 1000 → A.mulVec (fun _ => (j : ℝ)) = b ∨
      ∃ i, (10 : ℝ) ^ (-(cfg.prec : Int)) ≤ |A.mulVec (fun _ => (j : ℝ)) i - b i|)
    (hA : ctx.findVar "A".toList = some [a]) (hb : ctx.findVar "b".toList = some [r]) (ha : IsMatrix a A) (hr : IsVector r b) :
    ∃ (l : List F) (w : Value F) (X : Fin (n + 1) → ℝ), Finishes (fun n => eval cfg n (.equation eqs names) ctx) (.ok [asSolution l]) ∧ Calculates cfg ctx "inv(A)*b" w ∧
      IsVector (.vector l) X ∧ IsVector w X := by
  obtain ⟨l, X, h1, h2, h3⟩ := C48_eq_solves cfg ctx eqs names A b heqs hnames hnodup hfresh hlin hminors hstart
  obtain ⟨ai, h4, h5⟩ := inv_calc ha hminors
  obtain ⟨w, h6, h7⟩ := C31_apply h5 hr
  have hX : A⁻¹ *ᵥ b = X := by
    rw [← h3, Matrix.mulVec_mulVec, Matrix.nonsing_inv_mul _ (isUnit_iff_ne_zero.2 (minors_det hminors)), Matrix.one_mulVec]
  rw [hX] at h7
  exact ⟨l, w, X, h1, (one_mult (one_inv (one_var hA) h4) (one_var hb) h6).calc ⟨wfInv wfA, wfb, by decide, by decide, nofun⟩ (by decide),
    ⟨l, rfl, h2⟩, h7⟩

/-! ## Lengths -/

private theorem abs_calc {a : Value F} {n : Nat} {x : Fin n → ℝ} (ha : IsVector a x) :
    ∃ w, vAbs a = .ok w ∧ IsScalar w (Real.sqrt (x ⬝ᵥ x)) := by
  obtain ⟨s, h1, h2⟩ := C33_abs_vector ha
  exact ⟨_, h2, _, rfl, ExactReal.val_sqrt h1 (Finset.sum_nonneg fun i _ => mul_self_nonneg _)⟩

private theorem cauchy {n : Nat} (x y : Fin n → ℝ) : |x ⬝ᵥ y| ≤ Real.sqrt (x ⬝ᵥ x) * Real.sqrt (y ⬝ᵥ y) := by
  have hx : 0 ≤ x ⬝ᵥ x := Finset.sum_nonneg fun i _ => mul_self_nonneg _
  rw [← Real.sqrt_mul hx]
  refine Real.abs_le_sqrt ?_
  have := Finset.sum_mul_sq_le_sq_mul_sq Finset.univ x y
  simpa only [dotProduct, ← sq] using this

private theorem triangle {n : Nat} (x y : Fin n → ℝ) :
    Real.sqrt ((x + y) ⬝ᵥ (x + y)) ≤ Real.sqrt (x ⬝ᵥ x) + Real.sqrt (y ⬝ᵥ y) := by
  have hx : 0 ≤ x ⬝ᵥ x := Finset.sum_nonneg fun i _ => mul_self_nonneg _
  have hy : 0 ≤ y ⬝ᵥ y := Finset.sum_nonneg fun i _ => mul_self_nonneg _
  refine Real.sqrt_le_iff.2 ⟨by positivity, ?_⟩
  have h := (le_abs_self _).trans (cauchy x y)
  rw [add_dotProduct, dotProduct_add, dotProduct_add, dotProduct_comm y x]
  nlinarith [Real.sq_sqrt hx, Real.sq_sqrt hy]

/-- **C111**: the length of a sum is at most the sum of the lengths. -/
theorem C111_triangle {a b : Value F} (hu : ctx.findVar "u".toList = some [a]) (hv : ctx.findVar "v".toList = some [b]) :
    (∀ (n : Nat) (x y : Fin n → ℝ), IsVector a x → IsVector b y → NotMore ℝ cfg ctx "abs(u+v)" "abs(u)+abs(v)") ∧
    (∀ x y : ℝ, IsScalar a x → IsScalar b y → NotMore ℝ cfg ctx "abs(u+v)" "abs(u)+abs(v)") := by
  constructor
  · intro n x y ha hb
    obtain ⟨s, h1, h2⟩ := C30_sum.2.1 n x y ha hb
    obtain ⟨w1, h3, h4⟩ := abs_calc h2
    obtain ⟨w2, h5, h6⟩ := abs_calc ha
    obtain ⟨w3, h7, h8⟩ := abs_calc hb
    obtain ⟨w4, h9, h10⟩ := C30_sum.1 _ _ h6 h8
    exact ⟨w1, w4, _, _, (one_abs (one_add (one_var hu) (one_var hv) h1) h3).calc ⟨by decide, wfu, wfv, by decide, by decide, nofun⟩ (by decide),
      (one_add (one_abs (one_var hu) h5) (one_abs (one_var hv) h7) h9).calc ⟨⟨by decide, wfu⟩, ⟨by decide, wfv⟩, by decide, by decide, nofun⟩ (by decide),
      h4, h10, triangle x y⟩
  · intro x y ha hb
    obtain ⟨s, h1, h2⟩ := C30_sum.1 x y ha hb
    obtain ⟨w1, h3, h4⟩ := C33_abs_scalar h2
    obtain ⟨w2, h5, h6⟩ := C33_abs_scalar ha
    obtain ⟨w3, h7, h8⟩ := C33_abs_scalar hb
    obtain ⟨w4, h9, h10⟩ := C30_sum.1 _ _ h6 h8
    exact ⟨w1, w4, _, _, (one_abs (one_add (one_var hu) (one_var hv) h1) h3).calc ⟨by decide, wfu, wfv, by decide, by decide, nofun⟩ (by decide),
      (one_add (one_abs (one_var hu) h5) (one_abs (one_var hv) h7) h9).calc ⟨⟨by decide, wfu⟩, ⟨by decide, wfv⟩, by decide, by decide, nofun⟩ (by decide),
      h4, h10, abs_add_le x y⟩

/-- **C111**: the lengths of two vectors differ by at most the length of their difference. -/
theorem C111_difference {a b : Value F} {n : Nat} {x y : Fin n → ℝ} (hu : ctx.findVar "u".toList = some [a]) (hv : ctx.findVar "v".toList = some [b])
    (ha : IsVector a x) (hb : IsVector b y) : NotMore ℝ cfg ctx "abs(abs(u)-abs(v))" "abs(u-v)" := by
  obtain ⟨s, h1, h2⟩ := C30_difference.2.1 n x y ha hb
  obtain ⟨w1, h3, h4⟩ := abs_calc h2
  obtain ⟨w2, h5, h6⟩ := abs_calc ha
  obtain ⟨w3, h7, h8⟩ := abs_calc hb
  obtain ⟨w4, h9, h10⟩ := C30_difference.1 _ _ h6 h8
  obtain ⟨w5, h11, h12⟩ := C33_abs_scalar h10
  refine ⟨w5, w1, _, _, (one_abs (one_sub (one_abs (one_var hu) h5) (one_abs (one_var hv) h7) h9) h11).calc
      ⟨by decide, ⟨by decide, wfu⟩, ⟨by decide, wfv⟩, by decide, by decide, nofun⟩ (by decide),
    (one_abs (one_sub (one_var hu) (one_var hv) h1) h3).calc ⟨by decide, wfu, wfv, by decide, by decide, nofun⟩ (by decide), h12, h4, ?_⟩
  have t1 := triangle (x - y) y
  have t2 := triangle (y - x) x
  rw [sub_add_cancel] at t1 t2
  rw [← neg_sub x y, neg_dotProduct, dotProduct_neg, neg_neg] at t2
  exact abs_sub_le_iff.2 ⟨by linarith, by linarith⟩

/-- **C111**: the product of two vectors is at most the product of their lengths. -/
theorem C111_product {a b : Value F} {n : Nat} {x y : Fin n → ℝ} (hu : ctx.findVar "u".toList = some [a]) (hv : ctx.findVar "v".toList = some [b])
    (ha : IsVector a x) (hb : IsVector b y) : NotMore ℝ cfg ctx "abs(u*v)" "abs(u)*abs(v)" := by
  obtain ⟨s, h1, h2⟩ := C33_dot ha hb
  obtain ⟨w1, h3, h4⟩ := C33_abs_scalar h2
  obtain ⟨w2, h5, h6⟩ := abs_calc ha
  obtain ⟨w3, h7, h8⟩ := abs_calc hb
  obtain ⟨w4, h9, h10⟩ := (C32_scale h6).1 _ h8
  exact ⟨w1, w4, _, _, (one_abs (one_mult (one_var hu) (one_var hv) h1) h3).calc ⟨by decide, wfu, wfv, by decide, by decide, nofun⟩ (by decide),
    (one_mult (one_abs (one_var hu) h5) (one_abs (one_var hv) h7) h9).calc ⟨⟨by decide, wfu⟩, ⟨by decide, wfv⟩, by decide, by decide, nofun⟩ (by decide),
    h4, h10, cauchy x y⟩

/-- **C111**: the length of a multiple is the multiple of the length. -/
theorem C111_multiple {a b : Value F} {n : Nat} {t : ℝ} {y : Fin n → ℝ} (hu : ctx.findVar "x".toList = some [a]) (hv : ctx.findVar "v".toList = some [b])
    (ha : IsScalar a t) (hb : IsVector b y) : Agree ℝ cfg ctx "abs(x*v)" "abs(x)*abs(v)" := by
  obtain ⟨s, h1, h2⟩ := (C32_scale ha).2.1 n y hb
  obtain ⟨w1, h3, h4⟩ := abs_calc h2
  obtain ⟨w2, h5, h6⟩ := C33_abs_scalar ha
  obtain ⟨w3, h7, h8⟩ := abs_calc hb
  obtain ⟨w4, h9, h10⟩ := (C32_scale h6).1 _ h8
  have he : Real.sqrt ((t • y) ⬝ᵥ (t • y)) = |t| * Real.sqrt (y ⬝ᵥ y) := by
    rw [smul_dotProduct, dotProduct_smul, smul_eq_mul, smul_eq_mul, ← mul_assoc, Real.sqrt_mul (mul_self_nonneg t), Real.sqrt_mul_self_eq_abs]
  rw [he] at h4
  exact ⟨w1, w4, (one_abs (one_mult (one_var hu) (one_var hv) h1) h3).calc ⟨by decide, wfx, wfv, by decide, by decide, nofun⟩ (by decide),
    (one_mult (one_abs (one_var hu) h5) (one_abs (one_var hv) h7) h9).calc ⟨⟨by decide, wfx⟩, ⟨by decide, wfv⟩, by decide, by decide, nofun⟩ (by decide),
    .scalar _ h4 h10⟩

/-- **C111**: lengths are not negative, and only the zero vector has the length zero. -/
theorem C111_positive {a : Value F} {n : Nat} {x : Fin n → ℝ} (hv : ctx.findVar "v".toList = some [a]) (ha : IsVector a x) :
    ∃ (w : Value F) (r : ℝ), Calculates cfg ctx "abs(v)" w ∧ IsScalar w r ∧ 0 ≤ r ∧ (r = 0 ↔ x = 0) := by
  obtain ⟨w, h1, h2⟩ := abs_calc ha
  refine ⟨w, _, (one_abs (one_var hv) h1).calc ⟨by decide, wfv⟩ (by decide), h2, Real.sqrt_nonneg _, ?_⟩
  have hx : 0 ≤ x ⬝ᵥ x := Finset.sum_nonneg fun i _ => mul_self_nonneg _
  rw [Real.sqrt_eq_zero hx, dotProduct, Finset.sum_eq_zero_iff_of_nonneg fun i _ => mul_self_nonneg _]
  constructor
  · exact fun h => funext fun i => mul_self_eq_zero.1 (h i (Finset.mem_univ i))
  · rintro rfl i -
    simp

/-- **C111**: in a parallelogram the squares of the diagonals add up to the squares of the four sides. -/
theorem C111_parallelogram {a b : Value F} {n : Nat} {x y : Fin n → ℝ} (hu : ctx.findVar "u".toList = some [a]) (hv : ctx.findVar "v".toList = some [b])
    (ha : IsVector a x) (hb : IsVector b y) : Agree ℝ cfg ctx "(u+v)*(u+v)+(u-v)*(u-v)" "2*(u*u+v*v)" := by
  obtain ⟨s, h1, h2⟩ := C30_sum.2.1 n x y ha hb
  obtain ⟨d, h3, h4⟩ := C30_difference.2.1 n x y ha hb
  obtain ⟨w1, h5, h6⟩ := C33_dot h2 h2
  obtain ⟨w2, h7, h8⟩ := C33_dot h4 h4
  obtain ⟨w3, h9, h10⟩ := C30_sum.1 _ _ h6 h8
  obtain ⟨w4, h11, h12⟩ := C33_dot ha ha
  obtain ⟨w5, h13, h14⟩ := C33_dot hb hb
  obtain ⟨w6, h15, h16⟩ := C30_sum.1 _ _ h12 h14
  obtain ⟨w7, h17, h18⟩ := (C32_scale (two_val (F := F))).1 _ h16
  have he : (x + y) ⬝ᵥ (x + y) + (x - y) ⬝ᵥ (x - y) = 2 * (x ⬝ᵥ x + y ⬝ᵥ y) := by
    rw [add_dotProduct, dotProduct_add, dotProduct_add, sub_dotProduct, dotProduct_sub, dotProduct_sub]
    ring
  rw [he] at h10
  have c1 := one_paren (one_add (cfg := cfg) (one_var hu) (one_var hv) h1)
  have c2 := one_paren (one_sub (cfg := cfg) (one_var hu) (one_var hv) h3)
  have wp : (Ex.paren (.bin .add (.var "u".toList) (.var "v".toList))).WF := ⟨wfu, wfv, by decide, by decide, nofun⟩
  have wm : (Ex.paren (.bin .sub (.var "u".toList) (.var "v".toList))).WF := ⟨wfu, wfv, by decide, by decide, nofun⟩
  exact ⟨w3, w7, (one_add (one_mult c1 c1 h5) (one_mult c2 c2 h7) h9).calc
      ⟨⟨wp, wp, by decide, by decide, nofun⟩, ⟨wm, wm, by decide, by decide, nofun⟩, by decide, by decide, nofun⟩ (by decide),
    Has1.calc (e := .bin .mult (.num "2".toList none) (.paren (.bin .add (.bin .mult (.var "u".toList) (.var "u".toList)) (.bin .mult (.var "v".toList) (.var "v".toList)))))
      (one_mult (one_scalar _) (one_paren (one_add (one_mult (one_var hu) (one_var hu) h11) (one_mult (one_var hv) (one_var hv) h13) h15)) h17)
      ⟨wf_num (s := "2") (by decide), ⟨⟨wfu, wfu, by decide, by decide, nofun⟩, ⟨wfv, wfv, by decide, by decide, nofun⟩, by decide, by decide, nofun⟩, by decide, by decide, nofun⟩ (by decide),
    .scalar _ h10 h18⟩

end

/-! ## Where they do not agree, and examples -/

section
attribute [local instance] UTable.ascii

/-- `A = [[1,1],[0,1]]`, `B = [[1,0],[-1,1]]`, `m = 2`, `n = 1`. -/
def pair2 : Context Q := ⟨[⟨['A'], [.matrix [[.fin 1, .fin 1], [.fin 0, .fin 1]]]⟩, ⟨['B'], [.matrix [[.fin 1, .fin 0], [.fin (-1), .fin 1]]]⟩,
  ⟨['C'], [.matrix [[.fin 1, .fin 1], [.fin 1, .fin 0]]]⟩], []⟩

/-- The condition on the product is needed: with `A = [[1,1],[0,1]]` and `B = [[1,0],[-1,1]]` the inverse of `A*B` is not a number anywhere. -/
theorem C103_inverse_product_false :
    Calculates Cfg.default pair2 "inv(A*B)" (.matrix [[.nan, .nan], [.nan, .nan]]) ∧
    Calculates Cfg.default pair2 "inv(B)*inv(A)" (.matrix [[.fin 1, .fin (-1)], [.fin 1, .fin 0]]) := by
  refine ⟨⟨by simp, 6, ?_⟩, ⟨by simp, 6, ?_⟩⟩ <;> beta_reduce <;> decide +kernel

/-- The condition on the inverse is needed: for `[[1,1],[1,0]]`. -/
theorem C103_inverse_twice_false :
    Calculates Cfg.default pair2 "inv(C)" (.matrix [[.fin 0, .fin 1], [.fin 1, .fin (-1)]]) ∧
    Calculates Cfg.default pair2 "inv(inv(C))" (.matrix [[.nan, .nan], [.nan, .nan]]) := by
  refine ⟨⟨by simp, 6, ?_⟩, ⟨by simp, 6, ?_⟩⟩ <;> beta_reduce <;> decide +kernel

/-- `A^(-1)` is not the inverse of `A`. -/
theorem C103_power_false :
    Calculates Cfg.default pair2 "A^(-1)" (.matrix [[.fin 1, .fin 0], [.fin 0, .fin 1]]) ∧
    Calculates Cfg.default pair2 "inv(A)" (.matrix [[.fin 1, .fin (-1)], [.fin 0, .fin 1]]) := by
  refine ⟨⟨by simp, 6, ?_⟩, ⟨by simp, 6, ?_⟩⟩ <;> beta_reduce <;> decide +kernel

end
end MUL
