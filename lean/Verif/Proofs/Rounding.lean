import Verif.Num.Libm
import Verif.Spec.Near
import Verif.Proofs.Denote
/-!
# Rounding errors: the operations of the library on binary64 numbers
-/

set_option linter.unusedSectionVars false

namespace MUL
open Out Spec FArith

section
variable {F : Type} [FArith F] [Binary64 F]

/-- The result of rounding something near `x`. -/
theorem fl_near {z : ℚ} {x t : ℝ} (hz : |(z : ℝ) - x| ≤ t) : |((F64.fl z : ℚ) : ℝ) - x| ≤ t + roundErr (|x| + t) := by
  have h1 := fl_error_real z
  have h2 : |(z : ℝ)| ≤ |x| + t := by
    calc |(z : ℝ)| = |(z - x) + x| := by ring_nf
      _ ≤ |(z : ℝ) - x| + |x| := abs_add_le _ _
      _ ≤ _ := by linarith
  calc |((F64.fl z : ℚ) : ℝ) - x| = |(((F64.fl z : ℚ) : ℝ) - z) + (z - x)| := by ring_nf
    _ ≤ |((F64.fl z : ℚ) : ℝ) - z| + |(z : ℝ) - x| := abs_add_le _ _
    _ ≤ _ := by linarith [roundErr_mono h2]

theorem abs_near {z : ℚ} {x t : ℝ} (hz : |(z : ℝ) - x| ≤ t) (h : |x| + t < overflow) : |z| < Binary64.limit := by
  apply lt_limit_of_real
  refine lt_of_le_of_lt ?_ h
  calc |(z : ℝ)| = |(z - x) + x| := by ring_nf
    _ ≤ |(z : ℝ) - x| + |x| := abs_add_le _ _
    _ ≤ _ := by linarith

theorem near_zero {q : ℚ} {x : ℝ} (h : |(q : ℝ) - x| ≤ 0) : (q : ℝ) = x := by
  have := abs_nonpos_iff.1 h
  linarith

theorem rep_of_real {z : ℚ} (h : RepresentableR (z : ℝ)) : Representable z := by
  obtain ⟨q, h1, h2⟩ := h
  have : q = z := by exact_mod_cast h2
  exact this ▸ h1

theorem near_add {a b : F} {p q r : Approx} (ha : Near a p) (hb : Near b q) (h : SumR p q r) : Near (add a b) r := by
  obtain ⟨u, hu, hu'⟩ := ha
  obtain ⟨v, hv, hv'⟩ := hb
  cases h with
  | rounded x s y t hlt =>
    simp only at hu' hv'
    have h1 : |((u + v : ℚ) : ℝ) - (x + y)| ≤ s + t := by
      push_cast
      calc |((u : ℝ) + v) - (x + y)| = |((u : ℝ) - x) + (v - y)| := by ring_nf
        _ ≤ _ := (abs_add_le _ _).trans (by linarith)
    refine ⟨_, Binary64.val_add hu hv (abs_near h1 hlt), ?_⟩
    obtain ⟨m, hm⟩ := F64.representable_multiple (Binary64.rep hu)
    obtain ⟨n, hn⟩ := F64.representable_multiple (Binary64.rep hv)
    have h2 := fl_error_real_multiple (x := u + v) (m + n) (by rw [hm, hn]; push_cast; ring)
    have h3 : |((u + v : ℚ) : ℝ)| ≤ |x + y| + (s + t) := by
      calc |((u + v : ℚ) : ℝ)| = |(((u + v : ℚ) : ℝ) - (x + y)) + (x + y)| := by ring_nf
        _ ≤ |((u + v : ℚ) : ℝ) - (x + y)| + |x + y| := abs_add_le _ _
        _ ≤ _ := by linarith
    have h4 : |((u + v : ℚ) : ℝ)| / 2 ^ 53 ≤ (|x + y| + (s + t)) / 2 ^ 53 := by gcongr
    calc |((F64.fl (u + v) : ℚ) : ℝ) - (x + y)| = |(((F64.fl (u + v) : ℚ) : ℝ) - (u + v : ℚ)) + (((u + v : ℚ) : ℝ) - (x + y))| := by
          ring_nf
      _ ≤ |((F64.fl (u + v) : ℚ) : ℝ) - (u + v : ℚ)| + |((u + v : ℚ) : ℝ) - (x + y)| := abs_add_le _ _
      _ ≤ _ := by linarith
  | exact x y hrep =>
    have e1 := near_zero hu'
    have e2 := near_zero hv'
    simp only at e1 e2
    rw [← e1, ← e2] at hrep ⊢
    have hr : Representable (u + v) := rep_of_real (by push_cast; exact hrep)
    refine ⟨_, Binary64.val_add hu hv (rep_lt_limit hr), ?_⟩
    rw [F64.fl_representable hr]
    push_cast
    simp

theorem prod_near {u v : ℚ} {x s y t : ℝ} (hu : |(u : ℝ) - x| ≤ s) (hv : |(v : ℝ) - y| ≤ t) :
    |((u * v : ℚ) : ℝ) - x * y| ≤ prodErr x s y t := by
  have hs : 0 ≤ s := (abs_nonneg _).trans hu
  have e : ((u * v : ℚ) : ℝ) - x * y = x * (v - y) + (u - x) * y + (u - x) * (v - y) := by push_cast; ring
  rw [e]
  unfold prodErr
  calc |x * (v - y) + (u - x) * y + (u - x) * (v - y)| ≤ |x * (v - y)| + |(u - x) * y| + |((u : ℝ) - x) * (v - y)| := abs_add_three _ _ _
    _ = |x| * |(v : ℝ) - y| + |(u : ℝ) - x| * |y| + |(u : ℝ) - x| * |(v : ℝ) - y| := by rw [abs_mul, abs_mul, abs_mul]
    _ ≤ _ := by gcongr

theorem near_mul {a b : F} {p q r : Approx} (ha : Near a p) (hb : Near b q) (h : ProdR p q r) : Near (mul a b) r := by
  obtain ⟨u, hu, hu'⟩ := ha
  obtain ⟨v, hv, hv'⟩ := hb
  cases h with
  | rounded x s y t hlt =>
    have h1 := prod_near hu' hv'
    exact ⟨_, Binary64.val_mul hu hv (abs_near h1 hlt), fl_near h1⟩
  | exact x y hrep =>
    have e1 := near_zero hu'
    have e2 := near_zero hv'
    simp only at e1 e2
    rw [← e1, ← e2] at hrep ⊢
    have hr : Representable (u * v) := rep_of_real (by push_cast; exact hrep)
    refine ⟨_, Binary64.val_mul hu hv (rep_lt_limit hr), ?_⟩
    rw [F64.fl_representable hr]
    push_cast
    simp

theorem quot_near {u v : ℚ} {x s y t : ℝ} (hu : |(u : ℝ) - x| ≤ s) (hv : |(v : ℝ) - y| ≤ t) (hty : t < |y|) :
    (v : ℝ) ≠ 0 ∧ |((u / v : ℚ) : ℝ) - x / y| ≤ quotErr x s y t := by
  have ht : 0 ≤ t := (abs_nonneg _).trans hv
  have hs : 0 ≤ s := (abs_nonneg _).trans hu
  have hy0 : 0 < |y| := lt_of_le_of_lt ht hty
  have hy : y ≠ 0 := abs_pos.1 hy0
  have hv1 : |y| - t ≤ |(v : ℝ)| := by
    have : |y| ≤ |(v : ℝ)| + |(v : ℝ) - y| := by
      calc |y| = |(v : ℝ) - (v - y)| := by ring_nf
        _ ≤ _ := abs_sub _ _
    linarith
  have hvp : 0 < |(v : ℝ)| := by linarith
  have hv0 : (v : ℝ) ≠ 0 := abs_pos.1 hvp
  refine ⟨hv0, ?_⟩
  have e : ((u / v : ℚ) : ℝ) - x / y = ((u - x) * y - x * (v - y)) / (y * v) := by push_cast; field_simp; ring
  rw [e, abs_div, abs_mul]
  unfold quotErr
  have h1 : |((u : ℝ) - x) * y - x * (v - y)| ≤ |x| * t + s * |y| := by
    calc |((u : ℝ) - x) * y - x * (v - y)| ≤ |((u : ℝ) - x) * y| + |x * (v - y)| := abs_sub _ _
      _ = |(u : ℝ) - x| * |y| + |x| * |(v : ℝ) - y| := by rw [abs_mul, abs_mul]
      _ ≤ s * |y| + |x| * t := by gcongr
      _ = _ := by ring
  have h2 : 0 < |y| * (|y| - t) := mul_pos hy0 (by linarith)
  exact div_le_div₀ (by positivity) h1 h2 (mul_le_mul_of_nonneg_left hv1 hy0.le)

theorem near_div {a b : F} {p q r : Approx} (ha : Near a p) (hb : Near b q) (h : QuotR p q r) : Near (div a b) r := by
  obtain ⟨u, hu, hu'⟩ := ha
  obtain ⟨v, hv, hv'⟩ := hb
  cases h with
  | rounded x s y t _ hty hlt =>
    obtain ⟨h0, h1⟩ := quot_near hu' hv' hty
    exact ⟨_, Binary64.val_div hu hv (by exact_mod_cast h0) (abs_near h1 hlt), fl_near h1⟩
  | exact x y hy hrep =>
    have e1 := near_zero hu'
    have e2 := near_zero hv'
    simp only at e1 e2
    rw [← e1, ← e2] at hrep ⊢
    have hr : Representable (u / v) := rep_of_real (by push_cast; exact hrep)
    have hv0 : v ≠ 0 := by
      rintro rfl
      apply hy
      rw [← e2, Rat.cast_zero]
    refine ⟨_, Binary64.val_div hu hv hv0 (rep_lt_limit hr), ?_⟩
    rw [F64.fl_representable hr]
    push_cast
    simp

theorem val_int {n : Int} (h : |n| ≤ 2 ^ 53) : Binary64.val (ofInt n : F) = some (n : ℚ) := by
  have hr := representable_int h
  rw [Binary64.val_ofInt n (rep_lt_limit hr), F64.fl_representable hr]

theorem near_int {n : Int} (h : |n| ≤ 2 ^ 53) : Near (ofInt n : F) ⟨n, 0⟩ := ⟨n, val_int h, by simp⟩

theorem near_neg_left {a : F} {p : Approx} (ha : Near a p) : Near (mul (ofInt (-1)) a) p.neg := by
  obtain ⟨u, hu, hu'⟩ := ha
  have hr := representable_neg (Binary64.rep hu)
  have h1 := Binary64.val_mul (F := F) (val_int (n := -1) (by norm_num)) hu (by push_cast; rw [neg_one_mul]; exact rep_lt_limit hr)
  push_cast at h1
  rw [neg_one_mul, F64.fl_representable hr] at h1
  refine ⟨_, h1, ?_⟩
  simp only [Approx.neg]
  push_cast
  rw [← neg_sub', abs_neg]
  exact hu'

theorem near_neg_right {a : F} {p : Approx} (ha : Near a p) : Near (mul a (ofInt (-1))) p.neg := by
  obtain ⟨u, hu, hu'⟩ := ha
  have hr := representable_neg (Binary64.rep hu)
  have h1 := Binary64.val_mul (F := F) hu (val_int (n := -1) (by norm_num)) (by push_cast; rw [mul_neg_one]; exact rep_lt_limit hr)
  push_cast at h1
  rw [mul_neg_one, F64.fl_representable hr] at h1
  refine ⟨_, h1, ?_⟩
  simp only [Approx.neg]
  push_cast
  rw [← neg_sub', abs_neg]
  exact hu'

theorem near_dot_from {l k : List F} {as bs : List Approx} {s0 : F} {s r : Approx} (hl : List.Forall₂ Near l as)
    (hk : List.Forall₂ Near k bs) (hs : Near s0 s) (h : DotR as bs s r) :
    Near ((l.zip k).foldl (fun s p => add s (mul p.1 p.2)) s0) r := by
  induction h generalizing l k s0 with
  | nil s =>
    cases hl
    exact hs
  | cons hp hsum _ ih =>
    cases hl with
    | cons ha hl =>
      cases hk with
      | cons hb hk =>
        rw [List.zip_cons_cons, List.foldl_cons]
        exact ih hl hk (near_add hs (near_mul ha hb hp) hsum)

theorem near_dot {l k : List F} {as bs : List Approx} {r : Approx} (hl : List.Forall₂ Near l as)
    (hk : List.Forall₂ Near k bs) (h : DotR as bs ⟨0, 0⟩ r) : Near (dot l k) r := by
  refine near_dot_from hl hk ?_ h
  have := near_int (F := F) (n := 0) (by norm_num)
  simpa using this

theorem dotR_length {as bs : List Approx} {s r : Approx} (h : DotR as bs s r) : as.length = bs.length := by
  induction h with
  | nil => rfl
  | cons _ _ _ ih => simp [ih]

theorem near_each {R : Approx → Approx → Approx → Prop} {f : F → F → F}
    (hf : ∀ {a b p q r}, Near a p → Near b q → R p q r → Near (f a b) r) {l k : List F} {as bs cs : List Approx}
    (hl : List.Forall₂ Near l as) (hk : List.Forall₂ Near k bs) (h : Each R as bs cs) :
    l.length = k.length ∧ List.Forall₂ Near (List.zipWith f l k) cs := by
  obtain ⟨h, hlen⟩ := h
  refine ⟨by rw [hl.length_eq, hk.length_eq, hlen], ?_⟩
  clear hlen
  induction hl generalizing k bs cs with
  | nil =>
    simp only [List.zip_nil_left, List.zipWith_nil_left] at h ⊢
    cases h
    exact .nil
  | cons ha _ ih =>
    cases hk with
    | nil =>
      simp only [List.zip_nil_right, List.zipWith_nil_right] at h ⊢
      cases h
      exact .nil
    | cons hb hk =>
      rw [List.zip_cons_cons] at h
      cases h with
      | cons h1 h2 => exact .cons (hf ha hb h1) (ih hk h2)

theorem near_map {f : F → F} {R : Approx → Approx → Prop} (hf : ∀ {a p r}, Near a p → R p r → Near (f a) r) {l : List F}
    {as cs : List Approx} (hl : List.Forall₂ Near l as) (h : List.Forall₂ R as cs) : List.Forall₂ Near (l.map f) cs := by
  induction hl generalizing cs with
  | nil => cases h; exact .nil
  | cons ha _ ih =>
    cases h with
    | cons h1 h2 => exact .cons (hf ha h1) (ih h2)

theorem near_rows_map {f : F → F} {R : Approx → Approx → Prop} (hf : ∀ {a p r}, Near a p → R p r → Near (f a) r) {l : List (List F)}
    {as cs : List (List Approx)} (hl : List.Forall₂ (List.Forall₂ Near) l as) (h : List.Forall₂ (List.Forall₂ R) as cs) :
    List.Forall₂ (List.Forall₂ Near) (l.map fun r => r.map f) cs := by
  induction hl generalizing cs with
  | nil => cases h; exact .nil
  | cons ha _ ih =>
    cases h with
    | cons h1 h2 => exact .cons (near_map hf ha h1) (ih h2)

theorem rect_of_near {c : Nat} {l : List (List F)} {m : List (List Approx)} (hl : List.Forall₂ (List.Forall₂ Near) l m) (h : RectR c m) :
    Rect m.length c l := by
  refine ⟨hl.length_eq, ?_⟩
  clear * - hl h
  induction hl with
  | nil => simp
  | cons ha _ ih =>
    intro row hrow
    rcases List.mem_cons.1 hrow with rfl | hrow
    · rw [ha.length_eq]; exact h _ (by simp)
    · exact ih (fun r hr => h r (by simp [hr])) row hrow

theorem near_col {l : List (List F)} {m : List (List Approx)} (hl : List.Forall₂ (List.Forall₂ Near) l m) (j : Nat) :
    List.Forall₂ Near (col l j) (columnR m j) := by
  unfold col columnR
  induction hl with
  | nil => exact .nil
  | @cons a b l m ha _ ih =>
    rw [List.filterMap_cons, List.filterMap_cons]
    have hlen := ha.length_eq
    by_cases hj : j < a.length
    · have hj' : j < b.length := by omega
      rw [List.getElem?_eq_getElem hj, List.getElem?_eq_getElem hj']
      exact .cons (List.forall₂_iff_get.1 ha |>.2 j hj hj') ih
    · rw [List.getElem?_eq_none (by omega), List.getElem?_eq_none (by omega)]
      exact ih

theorem near_negV_right {l : List F} {as : List Approx} (hl : List.Forall₂ Near l as) :
    List.Forall₂ Near (l.map fun x => mul x (ofInt (-1))) (as.map Approx.neg) := by
  rw [List.forall₂_map_left_iff, List.forall₂_map_right_iff]
  exact hl.imp fun _ _ h => near_neg_right h

theorem near_negM_right {l : List (List F)} {as : List (List Approx)} (hl : List.Forall₂ (List.Forall₂ Near) l as) :
    List.Forall₂ (List.Forall₂ Near) (l.map fun r => r.map fun x => mul x (ofInt (-1))) (as.map fun r => r.map Approx.neg) := by
  rw [List.forall₂_map_left_iff, List.forall₂_map_right_iff]
  exact hl.imp fun _ _ h => near_negV_right h

theorem near_rows_zip {l k : List (List F)} {as bs cs : List (List Approx)} (hl : List.Forall₂ (List.Forall₂ Near) l as)
    (hk : List.Forall₂ (List.Forall₂ Near) k bs) (h : List.Forall₂ (fun p r => Each SumR p.1 p.2 r) (as.zip bs) cs) :
    List.Forall₂ (List.Forall₂ Near) (List.zipWith (List.zipWith add) l k) cs := by
  induction hl generalizing k bs cs with
  | nil =>
    simp only [List.zip_nil_left, List.zipWith_nil_left] at h ⊢
    cases h
    exact .nil
  | cons ha _ ih =>
    cases hk with
    | nil =>
      simp only [List.zip_nil_right, List.zipWith_nil_right] at h ⊢
      cases h
      exact .nil
    | cons hb hk =>
      rw [List.zip_cons_cons] at h
      cases h with
      | cons h1 h2 => exact .cons (near_each near_add ha hb h1).2 (ih hk h2)

theorem add_ok {v w : Value F} {a b c : ObjR} (hv : NearV v a) (hw : NearV w b) (h : AddR a b c) :
    ∃ u, vAdd v w = .ok u ∧ NearV u c := by
  cases h with
  | scalar h =>
    cases v <;> cases w <;> simp only [NearV] at hv hw
    exact ⟨_, rfl, near_add hv hw h⟩
  | vector h =>
    cases v <;> cases w <;> simp only [NearV] at hv hw
    obtain ⟨h1, h2⟩ := near_each near_add hv hw h
    exact ⟨_, vadd_eq _ _ h1, h2⟩
  | matrix hne hl hk hlen h =>
    cases v <;> cases w <;> simp only [NearV] at hv hw
    have r1 := rect_of_near hv hl
    have r2 := rect_of_near hw hk
    rw [← hlen] at r2
    exact ⟨_, madd_eq (List.length_pos_iff.2 hne) r1 r2, near_rows_zip hv hw h⟩

theorem sub_ok {v w : Value F} {a b c : ObjR} (hv : NearV v a) (hw : NearV w b) (h : AddR a b.neg c) :
    ∃ u, vSub v w = .ok u ∧ NearV u c := by
  generalize hb : b.neg = b' at h
  cases h with
  | scalar h =>
    cases v <;> cases b <;> cases w <;> simp only [NearV, ObjR.neg, ObjR.scalar.injEq, reduceCtorEq] at hv hw hb
    subst hb
    exact ⟨_, rfl, near_add hv (near_neg_right hw) h⟩
  | vector h =>
    cases v <;> cases b <;> cases w <;> simp only [NearV, ObjR.neg, ObjR.vector.injEq, reduceCtorEq] at hv hw hb
    subst hb
    obtain ⟨h1, h2⟩ := near_each near_add hv (near_negV_right hw) h
    exact ⟨_, vadd_eq _ _ h1, h2⟩
  | matrix hne hl hk hlen h =>
    cases v <;> cases b <;> cases w <;> simp only [NearV, ObjR.neg, ObjR.matrix.injEq, reduceCtorEq] at hv hw hb
    subst hb
    have r1 := rect_of_near hv hl
    have r2 := rect_of_near hw (c := _) (fun row hrow => by
      have := hk (row.map Approx.neg) (List.mem_map_of_mem hrow)
      rwa [List.length_map] at this)
    rw [List.length_map] at hlen
    rw [← hlen] at r2
    exact ⟨_, msub_eq (List.length_pos_iff.2 hne) r1 r2, near_rows_zip hv (near_negM_right hw) h⟩

theorem mul_ok {v w : Value F} {a b c : ObjR} (hv : NearV v a) (hw : NearV w b) (h : MulR a b c) :
    ∃ u, vMult v w = .ok u ∧ NearV u c := by
  cases h with
  | scalar h =>
    cases v <;> cases w <;> simp only [NearV] at hv hw
    exact ⟨_, rfl, near_mul hv hw h⟩
  | scaleVector h =>
    cases v <;> cases w <;> simp only [NearV] at hv hw
    exact ⟨_, rfl, near_map (fun h1 h2 => near_mul h1 hv h2) hw h⟩
  | vectorScale h =>
    cases v <;> cases w <;> simp only [NearV] at hv hw
    exact ⟨_, rfl, near_map (fun h1 h2 => near_mul h1 hw h2) hv h⟩
  | scaleMatrix hr h =>
    cases v <;> cases w <;> simp only [NearV] at hv hw
    exact ⟨_, smmult_eq _ (rect_of_near hw hr), near_rows_map (fun h1 h2 => near_mul h1 hv h2) hw h⟩
  | matrixScale hr h =>
    cases v <;> cases w <;> simp only [NearV] at hv hw
    exact ⟨_, smmult_eq _ (rect_of_near hv hr), near_rows_map (fun h1 h2 => near_mul h1 hw h2) hv h⟩
  | dot h =>
    cases v <;> cases w <;> simp only [NearV] at hv hw
    exact ⟨_, vvmult_eq _ _ (by rw [hv.length_eq, hw.length_eq, dotR_length h]), near_dot hv hw h⟩
  | @apply m l o hne h =>
    cases v <;> cases w <;> simp only [NearV] at hv hw
    have hrect : RectR l.length m := by
      clear hv hne
      induction h with
      | nil => intro row hrow; simp at hrow
      | cons h1 _ ih =>
        intro row hrow
        rcases List.mem_cons.1 hrow with rfl | hrow
        · exact dotR_length h1
        · exact ih row hrow
    refine ⟨_, mvmult_eq (List.length_pos_iff.2 hne) (rect_of_near hv hrect) hw.length_eq, ?_⟩
    clear hne hrect
    show List.Forall₂ Near _ _
    induction hv generalizing o with
    | nil => cases h; exact .nil
    | cons ha _ ih =>
      cases h with
      | cons h1 h2 => exact .cons (near_dot ha hw h1) (ih h2)
  | @matrix k c l m o hne hne' hl hk hm h =>
    cases v <;> cases w <;> simp only [NearV] at hv hw
    subst hk
    refine ⟨_, mmmult_eq (List.length_pos_iff.2 hne) (List.length_pos_iff.2 hne') (rect_of_near hv hl) (rect_of_near hw hm), ?_⟩
    clear hne hl
    show List.Forall₂ (List.Forall₂ Near) _ _
    induction hv generalizing o with
    | nil => cases h; exact .nil
    | cons ha _ ih =>
      cases h with
      | cons h1 h2 =>
        refine .cons ?_ (ih h2)
        rw [List.forall₂_map_left_iff]
        exact h1.imp fun j d hd => near_dot ha (near_col hw j) hd

theorem div_ok {v w : Value F} {a b c : ObjR} (hv : NearV v a) (hw : NearV w b) (h : DivR a b c) :
    ∃ u, vDiv v w = .ok u ∧ NearV u c := by
  have one : Near (ofInt 1 : F) ⟨1, 0⟩ := by simpa using near_int (F := F) (n := 1) (by norm_num)
  cases h with
  | scalar h =>
    cases v <;> cases w <;> simp only [NearV] at hv hw
    exact ⟨_, rfl, near_div hv hw h⟩
  | vector hq h =>
    cases v <;> cases w <;> simp only [NearV] at hv hw
    exact ⟨_, rfl, near_map (fun h1 h2 => near_mul h1 (near_div one hw hq) h2) hv h⟩
  | matrix hr hq h =>
    cases v <;> cases w <;> simp only [NearV] at hv hw
    exact ⟨_, smmult_eq _ (rect_of_near hv hr), near_rows_map (fun h1 h2 => near_mul h1 (near_div one hw hq) h2) hv h⟩

theorem neg_ok {v : Value F} {a : ObjR} (hv : NearV v a) : ∃ u, vNeg v = .ok u ∧ NearV u a.neg := by
  cases a <;> cases v <;> simp only [NearV] at hv
  · exact ⟨_, rfl, near_neg_left hv⟩
  · refine ⟨_, rfl, ?_⟩
    show List.Forall₂ Near _ _
    rw [List.forall₂_map_left_iff, List.forall₂_map_right_iff]
    exact hv.imp fun _ _ h => near_neg_left h
  · refine ⟨_, rfl, ?_⟩
    show List.Forall₂ (List.Forall₂ Near) _ _
    rw [List.forall₂_map_left_iff, List.forall₂_map_right_iff]
    refine hv.imp fun _ _ h => ?_
    rw [List.forall₂_map_left_iff, List.forall₂_map_right_iff]
    exact h.imp fun _ _ h => near_neg_left h

theorem near_weaker {v : Value F} {o o' : ObjR} (h : NearV v o) (hw : Weaker o o') : NearV v o' := by
  cases hw with
  | scalar hst =>
    cases v <;> simp only [NearV] at h ⊢
    obtain ⟨q, h1, h2⟩ := h
    exact ⟨q, h1, h2.trans hst⟩

theorem rnd_value_congr {a b : Ext ℚ} (h : a.value = b.value) : (F64.rnd a).ext.value = (F64.rnd b).ext.value := by
  have hz : (F64.rnd (.fin 0)).ext = .fin 0 := by simp [F64.rnd, F64.roundQ]
  cases a <;> cases b <;> simp only [Ext.value, Option.some.injEq, reduceCtorEq] at h
  · rw [h]
  · rw [h, hz]; rfl
  · rw [← h, hz]; rfl
  all_goals rfl

theorem near_sub {a b : F} {p q r : Approx} (ha : Near a p) (hb : Near b q) (h : SumR p q.neg r) : Near (sub a b) r := by
  have h1 := near_add ha (near_neg_right hb) h
  obtain ⟨z, hz, hz'⟩ := h1
  obtain ⟨u, hu, _⟩ := ha
  obtain ⟨v, hv, _⟩ := hb
  have hr := representable_neg (Binary64.rep hv)
  have e1 := Binary64.val_mul (F := F) hv (val_int (n := -1) (by norm_num)) (by push_cast; rw [mul_neg_one]; exact rep_lt_limit hr)
  push_cast at e1
  rw [mul_neg_one, F64.fl_representable hr] at e1
  refine ⟨z, ?_, hz'⟩
  rw [← hz]
  unfold Binary64.val at hu hv e1 ⊢
  rw [Binary64.bits_sub, Binary64.bits_add]
  have h2 : ∀ a b c : Ext ℚ, b.value = some v → a.value = some u → c.value = some (-v) →
      (F64.rnd (Ext.sub a b)).ext.value = (F64.rnd (Ext.add a c)).ext.value := by
    intro a b c hb ha hc
    have h3 : (Ext.sub a b).value = some (u - v) := Exact.val_sub (F := Ext ℚ) ha hb
    have h4 : (Ext.add a c).value = some (u - v) := by rw [Ext.add_value ha hc, sub_eq_add_neg]
    exact rnd_value_congr (h3.trans h4.symm)
  exact h2 _ _ _ hv hu e1

theorem near_getD {l : List F} {as : List Approx} (h : List.Forall₂ Near l as) (i : Nat) : Near (l.getD i (ofInt 0)) (padR as i) := by
  unfold padR
  induction h generalizing i with
  | nil => simpa using near_int (F := F) (n := 0) (by norm_num)
  | cons ha _ ih =>
    cases i with
    | zero => exact ha
    | succ i => exact ih i

theorem cross_ok {l k : List F} {as bs : List Approx} {x y z : Approx} (hl : List.Forall₂ Near l as) (hk : List.Forall₂ Near k bs)
    (hlen : as.length = bs.length) (h3 : as.length ≤ 3)
    (hx : Cross1 (padR as 1) (padR bs 2) (padR as 2) (padR bs 1) x) (hy : Cross1 (padR as 2) (padR bs 0) (padR as 0) (padR bs 2) y)
    (hz : Cross1 (padR as 0) (padR bs 1) (padR as 1) (padR bs 0) z) :
    ∃ u, vCross (.vector l) (.vector k) = .ok u ∧ NearV u (.vector [x, y, z]) := by
  have one : ∀ {i j m n : Nat} {r : Approx}, Cross1 (padR as i) (padR bs j) (padR as m) (padR bs n) r →
      Near (sub (mul (l.getD i (ofInt 0)) (k.getD j (ofInt 0))) (mul (l.getD m (ofInt 0)) (k.getD n (ofInt 0)))) r := by
    rintro i j m n r ⟨p, q, h1, h2, h3⟩
    exact near_sub (near_mul (near_getD hl i) (near_getD hk j) h1) (near_mul (near_getD hl m) (near_getD hk n) h2) h3
  have hlk : l.length = k.length := by rw [hl.length_eq, hk.length_eq, hlen]
  have hl3 : l.length ≤ 3 := by rw [hl.length_eq]; exact h3
  refine ⟨_, vcross_eq l k hlk hl3, ?_⟩
  have e : crossL l k = [sub (mul (l.getD 1 (ofInt 0)) (k.getD 2 (ofInt 0))) (mul (l.getD 2 (ofInt 0)) (k.getD 1 (ofInt 0))),
      sub (mul (l.getD 2 (ofInt 0)) (k.getD 0 (ofInt 0))) (mul (l.getD 0 (ofInt 0)) (k.getD 2 (ofInt 0))),
      sub (mul (l.getD 0 (ofInt 0)) (k.getD 1 (ofInt 0))) (mul (l.getD 1 (ofInt 0)) (k.getD 0 (ofInt 0)))] := by
    match l, k, hlk, hl3 with
    | [], [], _, _ => rfl
    | [_], [_], _, _ => rfl
    | [_, _], [_, _], _, _ => rfl
    | [_, _, _], [_, _, _], _, _ => rfl
  rw [e]
  exact .cons (one hx) (.cons (one hy) (.cons (one hz) .nil))

theorem get_ok {l : List F} {as : List Approx} {b : F} (hl : List.Forall₂ Near l as) {i : Nat} (hi : i < as.length) (h0 : 0 < i)
    (hlen : as.length ≤ 2 ^ 53) (hb : Near b ⟨i, 0⟩) : ∃ u, vGet (.vector l) (.scalar b) = .ok u ∧ NearV u (.scalar as[i]) := by
  obtain ⟨q, hq, hq'⟩ := hb
  have hqi : q = (i : ℚ) := by
    have := near_zero hq'
    simp only at this
    exact_mod_cast this
  subst hqi
  have hbits : Binary64.bits b = ⟨.fin (i : ℚ)⟩ := by
    unfold Binary64.val at hq
    generalize Binary64.bits b = t at hq ⊢
    obtain ⟨t⟩ := t
    cases t <;> simp only [Ext.value, Option.some.injEq, reduceCtorEq] at hq
    · rw [hq]
    · have : i = 0 := by exact_mod_cast hq.symm
      omega
  have hil : i < l.length := by rw [hl.length_eq]; exact hi
  have hrep1 : Representable 1 := by simpa using representable_int (n := 1) (by norm_num)
  have one : Binary64.val (ofInt 1 : F) = some 1 := by simpa using val_int (F := F) (n := 1) (by norm_num)
  have hrem : beq (rem b (ofInt 1)) (ofInt 0 : F) = true := by
    have e1 : Binary64.val (rem b (ofInt 1)) = some 0 := by
      have h1 : (Ext.rem (Binary64.bits b).ext (Binary64.bits (ofInt 1 : F)).ext).value = some ((i : ℚ) - (truncate ((i : ℚ) / 1) : ℚ) * 1) :=
        Exact.val_rem (F := Ext ℚ) hq one one_ne_zero
      have h2 : (i : ℚ) - truncate ((i : ℚ) / 1) * 1 = 0 := by
        unfold truncate
        rw [div_one, mul_one, if_pos (by positivity)]
        simp
      rw [h2] at h1
      unfold Binary64.val
      rw [Binary64.bits_rem]
      have := Binary64.val_rnd h1 (by rw [abs_zero]; exact lt_of_le_of_lt (abs_nonneg _) (rep_lt_limit hrep1))
      rwa [F64.fl_zero] at this
    have e2 : Binary64.val (ofInt 0 : F) = some 0 := by simpa using val_int (F := F) (n := 0) (by norm_num)
    rw [Binary64.beq_val e1 e2]
    rfl
  have hsign : isSignNeg b = false := by
    rw [Binary64.bits_isSignNeg, hbits]
    show Ext.signNeg (.fin (i : ℚ)) = false
    simp [Ext.signNeg]
  have hus : toUsize b = i := by
    rw [Binary64.bits_toUsize, hbits]
    show Ext.toUsize (.fin (i : ℚ)) = i
    simp only [Ext.toUsize, Ext.value]
    rw [if_pos (by positivity), show ⌊(i : ℚ)⌋ = (i : Int) from Int.floor_natCast i]
    simp only [Int.toNat_natCast]
    omega
  have hne : l.length ≠ 0 := by omega
  refine ⟨.scalar l[i], ?_, (List.forall₂_iff_get.1 hl).2 i hil hi⟩
  simp only [vGet, hrem, hsign, hus, Bool.not_true, Bool.or_self, Bool.false_eq_true, ↓reduceIte, if_neg hne,
    if_neg (show ¬ i > l.length - 1 by omega)]
  rw [show idx l i = Out.ok l[i] by unfold idx; rw [List.getElem?_eq_getElem hil]; rfl]
  rfl

end

section
variable {F : Type} [FNum F] [Binary64 F] {u : ℝ} [Libm F u]

theorem libErr_mono (hu : 0 ≤ u) {s t : ℝ} (h : s ≤ t) : libErr u s ≤ libErr u t := by
  unfold libErr
  have := mul_le_mul_of_nonneg_left h hu
  linarith

theorem two_steps {y v w t B : ℝ} (h1 : |y - v| ≤ B) (h2 : |v - w| ≤ t) : |y - w| ≤ t + B := by
  calc |y - w| = |(y - v) + (v - w)| := by ring_nf
    _ ≤ |y - v| + |v - w| := abs_add_le _ _
    _ ≤ _ := by linarith

theorem size {v w t : ℝ} (h2 : |v - w| ≤ t) : |v| ≤ |w| + t := by
  calc |v| = |(v - w) + w| := by ring_nf
    _ ≤ |v - w| + |w| := abs_add_le _ _
    _ ≤ _ := by linarith

include u in
theorem near_elem {f : F → F} {g : ℝ → ℝ} {D : ℝ → Prop} (hf : Accurate u f g D) {a : F} {x s t : ℝ} (ha : Near a ⟨x, s⟩)
    (h : ∀ z, |z - x| ≤ s → D z ∧ |g z - g x| ≤ t) : Near (f a) ⟨g x, t + libErr u (|g x| + t)⟩ := by
  obtain ⟨q, hq, hq'⟩ := ha
  obtain ⟨h1, h2⟩ := h q hq'
  obtain ⟨y, hy, hy'⟩ := hf a q hq h1
  exact ⟨y, hy, two_steps (hy'.trans (libErr_mono (Libm.nonneg F) (size h2))) h2⟩

include u in
theorem near_sqrt {a : F} {p r : Approx} (ha : Near a p) (h : SqrtR p r) : Near (FElem.sqrt a) r := by
  obtain ⟨q, hq, hq'⟩ := ha
  cases h with
  | rounded x s t _ h =>
    obtain ⟨h1, h2⟩ := h q hq'
    obtain ⟨y, hy, hy'⟩ := Libm.sqrt (u := u) a q hq (by exact_mod_cast h1)
    refine ⟨y, hy, ?_⟩
    have hov : |Real.sqrt q| < overflow := by
      rw [abs_of_nonneg (Real.sqrt_nonneg _)]
      have h3 : (q : ℝ) < overflow := by
        have h4 := rep_lt_limit (Binary64.rep hq)
        rw [abs_of_nonneg (by exact_mod_cast h1)] at h4
        rw [← limit_cast]
        exact_mod_cast h4
      rcases le_total (q : ℝ) 1 with h4 | h4
      · refine lt_of_le_of_lt (Real.sqrt_le_one.2 h4) ?_
        refine lt_of_lt_of_le ?_ (show (2 : ℝ) ^ 1023 ≤ overflow from ?_)
        · exact one_lt_pow₀ (by norm_num) (by norm_num)
        · have := Double.small (r := 0) (by rw [abs_zero]; positivity)
          unfold overflow
          have h5 : (2 : ℝ) ^ 970 ≤ 2 ^ 1023 := pow_le_pow_right₀ (by norm_num) (by norm_num)
          have h6 : (2 : ℝ) ^ 1024 = 2 ^ 1023 + 2 ^ 1023 := by rw [pow_succ, mul_two]
          rw [h6]
          exact le_sub_iff_add_le.2 (add_le_add_right h5 _)
      · refine lt_of_le_of_lt ?_ h3
        rw [Real.sqrt_le_left (by linarith)]
        nlinarith
    have := nearest_error hy' hov
    refine two_steps (this.trans (roundErr_mono ?_)) h2
    have := size h2
    rwa [abs_of_nonneg (Real.sqrt_nonneg x)] at this
  | exact x h0 hrep =>
    have e := near_zero hq'
    simp only at e
    subst e
    obtain ⟨y, hy, hy'⟩ := Libm.sqrt (u := u) a q hq (by exact_mod_cast h0)
    obtain ⟨z, hz, hz'⟩ := hrep
    refine ⟨y, hy, ?_⟩
    have := hy' z hz
    rwa [hz', sub_self, abs_zero] at this

include u in
theorem near_square {a : F} {p r : Approx} (ha : Near a p) (h : ProdR p p r) : Near (powi a 2) r := by
  have h1 := near_mul ha ha h
  obtain ⟨z, hz, hz'⟩ := h1
  obtain ⟨q, hq, hq'⟩ := ha
  have hlt : |q * q| < Binary64.limit := by
    cases h with
    | rounded x s y t hlt => exact abs_near (prod_near hq' hq') hlt
    | exact x y hrep =>
      have e := near_zero hq'
      simp only at e
      rw [← e] at hrep
      exact rep_lt_limit (rep_of_real (by push_cast; exact hrep))
  refine ⟨z, ?_, hz'⟩
  rw [Libm.square (u := u) a q hq hlt, ← hz, Binary64.val_mul hq hq hlt]

include u in
theorem near_squares {l : List F} {as : List Approx} {s0 : F} {s r : Approx} (hl : List.Forall₂ Near l as)
    (hs : Near s0 s) (h : DotR as as s r) : Near (l.foldl (fun sum i => add sum (powi i 2)) s0) r := by
  induction hl generalizing s0 s with
  | nil => cases h; exact hs
  | cons ha _ ih =>
    cases h with
    | cons hp hsum h => exact ih (near_add hs (near_square (u := u) ha hp) hsum) h

theorem near_abs {a : F} {x s : ℝ} (ha : Near a ⟨x, s⟩) : ∃ b, vAbs (.scalar a) = .ok (.scalar b) ∧ Near b ⟨|x|, s⟩ := by
  obtain ⟨q, hq, hq'⟩ := ha
  simp only at hq'
  have e0 : Binary64.val (ofInt 0 : F) = some 0 := by simpa using val_int (F := F) (n := 0) (by norm_num)
  have hlt := Binary64.lt_val hq e0
  have hbound : abs (((|q| : ℚ) : ℝ) - |x|) ≤ s := by
    push_cast
    exact (abs_abs_sub_abs_le _ _).trans hq'
  by_cases h : q < 0
  · have hr := representable_neg (Binary64.rep hq)
    have e1 := Binary64.val_mul (F := F) hq (val_int (n := -1) (by norm_num)) (by push_cast; rw [mul_neg_one]; exact rep_lt_limit hr)
    push_cast at e1
    rw [mul_neg_one, F64.fl_representable hr] at e1
    refine ⟨_, by simp only [vAbs]; rw [hlt, if_pos (by simpa using h)], -q, e1, ?_⟩
    rwa [abs_of_neg h] at hbound
  · refine ⟨_, by simp only [vAbs]; rw [hlt, if_neg (by simpa using h)], q, hq, ?_⟩
    rwa [abs_of_nonneg (not_lt.1 h)] at hbound

include u in
theorem fnR_ok {op : SimpleOp} {o r : ObjR} (h : FnR u op o r) {v : Value F} (hv : NearV v o) (b : Value F) :
    ∃ w, opTable op v b = .ok [w] ∧ NearV w r := by
  cases h with
  | elementary x s t hop _ h =>
    cases v <;> simp only [NearV] at hv
    cases hop with
    | sin => exact ⟨_, rfl, near_elem Libm.sin hv h⟩
    | cos => exact ⟨_, rfl, near_elem Libm.cos hv h⟩
    | tan => exact ⟨_, rfl, near_elem Libm.tan hv h⟩
    | arcsin => exact ⟨_, rfl, near_elem Libm.asin hv h⟩
    | arccos => exact ⟨_, rfl, near_elem Libm.acos hv h⟩
    | arctan => exact ⟨_, rfl, near_elem Libm.atan hv h⟩
    | ln => exact ⟨_, rfl, near_elem Libm.ln hv h⟩
  | abs x s =>
    cases v <;> simp only [NearV] at hv
    obtain ⟨c, h1, h2⟩ := near_abs hv
    exact ⟨.scalar c, by simp only [opTable, h1, ok_bind], h2⟩
  | sqrt h =>
    cases v <;> simp only [NearV] at hv
    exact ⟨_, rfl, near_sqrt (u := u) hv h⟩
  | length hd h =>
    cases v <;> simp only [NearV] at hv
    refine ⟨_, rfl, near_sqrt (u := u) (near_squares (u := u) hv ?_ hd) h⟩
    simpa using near_int (F := F) (n := 0) (by norm_num)

include u in
theorem near_pow {a b : F} {p q r : Approx} (ha : Near a p) (hb : Near b q) (h : PowR u p q r) : Near (FElem.powf a b) r := by
  obtain ⟨c, hc, hc'⟩ := ha
  obtain ⟨d, hd, hd'⟩ := hb
  cases h with
  | nat x s t n h hlt =>
    have e : d = (n : ℚ) := by
      have := near_zero hd'
      simp only at this
      exact_mod_cast this
    subst e
    have h1 := h c hc'
    obtain ⟨y, hy, hy'⟩ := Libm.pow_nat (u := u) a b c n hc hd (lt_of_le_of_lt (size h1) hlt)
    exact ⟨y, hy, two_steps (hy'.trans (libErr_mono (Libm.nonneg F) (size h1))) h1⟩
  | real x s y w t _ _ h hlt =>
    obtain ⟨h0, h1⟩ := h c d hc' hd'
    have hx : 0 < x := (h x y (by rw [sub_self, abs_zero]; exact (abs_nonneg _).trans hc') (by
      rw [sub_self, abs_zero]; exact (abs_nonneg _).trans hd')).1
    have hp := Real.rpow_pos_of_pos hx y
    have hs := size h1
    rw [abs_of_pos hp] at hs
    have hs' := le_trans (le_abs_self _) hs
    obtain ⟨z, hz, hz'⟩ := Libm.pow_pos (u := u) a b c d hc hd (by exact_mod_cast h0) (lt_of_le_of_lt hs' hlt)
    exact ⟨z, hz, two_steps (hz'.trans (libErr_mono (Libm.nonneg F) hs')) h1⟩

include u in
theorem opR_ok {op : BinOp} {a b c : ObjR} (h : OpR u op a b c) {v w : Value F} (hv : NearV v a) (hw : NearV w b) :
    ∃ r, opTable op.op v w = .ok [r] ∧ NearV r c := by
  have fin : ∀ {x : Out String (Value F)} {o : ObjR}, (∃ r, x = .ok r ∧ NearV r o) → ∃ r, (x >>= fun y => Out.ok [y]) = .ok [r] ∧ NearV r o := by
    rintro x o ⟨r, rfl, h⟩
    exact ⟨r, rfl, h⟩
  cases h with
  | add h => exact fin (add_ok hv hw h)
  | sub h => exact fin (sub_ok hv hw h)
  | mult h => exact fin (mul_ok hv hw h)
  | juxt h => exact fin (mul_ok hv hw h)
  | div h => exact fin (div_ok hv hw h)
  | pow h =>
    cases v <;> cases w <;> simp only [NearV] at hv hw
    exact ⟨_, rfl, near_pow hv hw h⟩
  | cross h1 h2 hx hy hz =>
    cases v <;> cases w <;> simp only [NearV] at hv hw
    exact fin (cross_ok hv hw h1 h2 hx hy hz)
  | get i h h0 hlen =>
    cases v <;> cases w <;> simp only [NearV] at hv hw
    exact fin (get_ok hv h h0 hlen hw)

/-! ## Contexts -/

theorem Spec.ModelsR.set {cfg : Cfg} {ctx : Context F} {ρ : EnvR} {φ : Defs} (h : ModelsR cfg ctx ρ φ) (x : Str) {p : F} {a : Approx}
    (hp : Near p a) : ModelsR cfg (setVar ctx x p) (ρ.set x (.scalar a)) φ := by
  refine ⟨?_, ?_, ?_⟩
  · have := h.nodup
    unfold NoDupVars setVar Context.addVar at *
    simp only [List.map_append, List.map_cons, List.map_nil]
    rw [List.nodup_append]
    refine ⟨this.sublist (List.filter_sublist.map _), by simp, ?_⟩
    intro a ha b hb
    simp only [List.mem_cons, List.not_mem_nil, or_false] at hb
    subst hb
    obtain ⟨v, hv, rfl⟩ := List.mem_map.1 ha
    simpa using (List.mem_filter.1 hv).2
  · intro n os hn
    unfold EnvR.set at hn
    split at hn
    · next hx =>
      subst hx
      cases hn
      refine ⟨.scalar p, ?_, hp⟩
      rw [setVar, findVar_addVar, if_pos rfl]
    · next hx =>
      obtain ⟨vs, h1, h2⟩ := h.vars n os hn
      exact ⟨vs, by rw [setVar, findVar_addVar, if_neg hx, h1], h2⟩
  · intro f params body hf
    exact h.funs f params body hf

theorem Spec.ModelsR.call {cfg : Cfg} {ctx : Context F} {ρ : EnvR} {φ : Defs} (h : ModelsR cfg ctx ρ φ) {params : List Str}
    {args : List (Value F)} {os : List ObjR} (hp : params.Nodup) (hargs : List.Forall₂ NearV args os) :
    ModelsR cfg ⟨callVars params args ctx.vars, ctx.funs⟩ (ρ.bind params os) φ := by
  have hfind : ∀ n, (⟨callVars params args ctx.vars, ctx.funs⟩ : Context F).findVar n =
      ((((params.zip args).map fun np => (⟨np.1, [np.2]⟩ : Variable F)).find? fun w => w.name == n).or
        (ctx.vars.find? fun w => w.name == n)).map (·.values) := by
    intro n
    unfold Context.findVar callVars
    rw [find_callVars]
  have key : ∀ n, (∃ v o, ((params.zip args).map fun np => (⟨np.1, [np.2]⟩ : Variable F)).find? (fun w => w.name == n) = some ⟨n, [v]⟩ ∧
        (params.zip os).find? (fun p => p.1 = n) = some (n, o) ∧ NearV v o) ∨
      (((params.zip args).map fun np => (⟨np.1, [np.2]⟩ : Variable F)).find? (fun w => w.name == n) = none ∧
        (params.zip os).find? (fun p => p.1 = n) = none) := by
    intro n
    clear h hp hfind
    induction hargs generalizing params with
    | nil => right; simp
    | @cons a o args os h1 _ ih =>
      cases params with
      | nil => right; simp
      | cons p params =>
        simp only [List.zip_cons_cons, List.map_cons, List.find?_cons]
        by_cases hpn : p = n
        · left
          subst hpn
          exact ⟨a, o, by simp, by simp, h1⟩
        · have hb : (p == n) = false := by simpa using hpn
          simp only [hb, hpn, decide_false]
          exact ih (params := params)
  refine ⟨?_, ?_, fun f ps body hf => h.funs f ps body hf⟩
  · refine nodup_callVars _ _ ?_
    rw [List.map_map]
    refine hp.sublist ?_
    clear h hp hfind key
    induction params generalizing args os with
    | nil => simp
    | cons p params ih =>
      cases hargs with
      | nil => simp
      | cons _ hargs => simpa using (ih hargs)
  · intro n o hn
    rw [hfind]
    unfold EnvR.bind at hn
    rcases key n with ⟨v, o', e1, e2, e3⟩ | ⟨e1, e2⟩
    · rw [e2] at hn
      cases hn
      exact ⟨v, by rw [e1]; rfl, e3⟩
    · rw [e2] at hn
      obtain ⟨v, h1, h2⟩ := h.vars n o hn
      exact ⟨v, by rw [e1]; exact h1, h2⟩

/-! ## The theorem -/

theorem simple_one {cfg : Cfg} {op : SimpleOp} {l r : AST F} {ctx : Context F} {w : Str} {a b c : Value F}
    (hl : Finishes (fun n => evalRec cfg n l ctx w) (.ok [a])) (hr : Finishes (fun n => evalRec cfg n r ctx w) (.ok [b]))
    (h : opTable op a b = .ok [c]) : Finishes (fun n => evalRec cfg n (.simple op l r) ctx w) (.ok [c]) := by
  have := C19_results (op := op) hl hr (fun _ => [c]) (by
    intro p hp
    simp only [pairs, List.flatMap_cons, List.flatMap_nil, List.map_cons, List.map_nil, List.append_nil, List.mem_singleton] at hp
    subst hp
    exact h)
  simpa [pairs] using this

theorem near_numeral {ip : Str} {fp : Option Str} : ∃ m : Nat, ∃ e : Int, (Ex.tree cfg (.num ip fp) : AST F) = .scalar (ofDec m e) ∧
    ((m * 10 ^ e : ℚ) : ℝ) = Spec.numeral ip fp := by
  refine ⟨_, _, rfl, ?_⟩
  rw [digitsVal_eq]
  unfold Spec.numeral digitsNumber decimal
  rw [zpow_neg, zpow_natCast, div_eq_mul_inv]
  generalize Nat.ofDigits 10 (List.map (fun c => c.toNat - 48) (List.reverse (ip ++ fp.getD []))) = m
  push_cast
  rfl

include u in
theorem rounds_eval {cfg : Cfg} {φ : Defs} {cur : Str} {ρ : EnvR} {e : Ex} {o : ObjR} (h : Rounds cfg u φ cur ρ e o) {ctx : Context F}
    (hm : ModelsR cfg ctx ρ φ) : ∃ v, Finishes (fun n => evalRec cfg n (e.tree cfg) ctx cur) (.ok [v]) ∧ NearV v o := by
  induction h generalizing ctx with
  | num ip fp hlt =>
    obtain ⟨m, k, h1, h2⟩ := near_numeral (F := F) (cfg := cfg) (ip := ip) (fp := fp)
    rw [h1]
    refine ⟨_, scalar_rec cfg ctx _ _, ?_⟩
    have h3 : ((m : ℚ) * 10 ^ k) < Binary64.limit := by
      rw [← h2, ← limit_cast] at hlt
      exact_mod_cast hlt
    refine ⟨_, Binary64.val_ofDec m k h3, ?_⟩
    have h4 := fl_error_real ((m : ℚ) * 10 ^ k)
    rw [h2] at h4
    have h5 : 0 ≤ Spec.numeral ip fp := by
      unfold Spec.numeral
      positivity
    rwa [abs_of_nonneg h5] at h4
  | numExact ip fp hrep =>
    obtain ⟨m, k, h1, h2⟩ := near_numeral (F := F) (cfg := cfg) (ip := ip) (fp := fp)
    rw [h1]
    refine ⟨_, scalar_rec cfg ctx _ _, ?_⟩
    rw [← h2] at hrep ⊢
    have hr := rep_of_real hrep
    refine ⟨_, Binary64.val_ofDec m k (lt_of_le_of_lt (le_abs_self _) (rep_lt_limit hr)), ?_⟩
    rw [F64.fl_representable hr]
    simp
  | var x o hx =>
    obtain ⟨v, h1, h2⟩ := hm.vars x o hx
    refine ⟨v, ⟨by simp, 1, ?_⟩, h2⟩
    simp only [Ex.tree, evalRec, h1]
  | paren e o _ ih =>
    obtain ⟨v, h1, h2⟩ := ih hm
    exact ⟨v, simple_one (op := .parenths) h1 (scalar_rec cfg ctx _ (ofInt 0)) rfl, h2⟩
  | neg e o _ ih =>
    obtain ⟨v, h1, h2⟩ := ih hm
    obtain ⟨w, h3, h4⟩ := neg_ok h2
    exact ⟨w, simple_one (op := .neg) (scalar_rec cfg ctx _ (ofInt 0)) h1 (by simp only [opTable, h3, ok_bind]), h4⟩
  | bin op l r a b c _ _ hop ihl ihr =>
    obtain ⟨v, h1, h2⟩ := ihl hm
    obtain ⟨w, h3, h4⟩ := ihr hm
    obtain ⟨z, h5, h6⟩ := opR_ok hop h2 h4
    exact ⟨z, simple_one (op := op.op) h1 h3 h5, h6⟩
  | vec es as hlen _ ih =>
    obtain ⟨fs, h1, h2⟩ := collect (P := fun e f => Finishes (fun n => evalRec cfg n (e.tree cfg) ctx _) (.ok [.scalar f]))
      (Q := fun (f : F) a => Near f a) hlen fun i hi => by
        obtain ⟨v, h1, h2⟩ := ih i hi hm
        cases v <;> simp only [NearV] at h2
        exact ⟨_, h1, h2⟩
    refine ⟨.vector fs, ?_, h2⟩
    have := C20_vector (cfg := cfg) (ctx := ctx) (es := es.map fun e => e.tree cfg) (fields := fs.map fun f => [f])
      (by
        rw [List.forall₂_map_left_iff, List.forall₂_map_right_iff]
        exact h1)
    rw [choices_singletons] at this
    simpa only [Ex.tree, treeAll_eq, List.map_cons, List.map_nil] using this
  | @mat cur ρ r c rows A hr hc _ ih =>
    have hent : ∀ (i : Fin (r + 1)) (j : Fin (c + 1)), ∃ g : F, Near g (A i j) ∧
        ∀ row e, rows[i.val]? = some row → row[j.val]? = some e →
          Finishes (fun n => evalRec cfg n (e.tree cfg) ctx cur) (.ok [.scalar g]) := by
      intro i j
      have hi : i.val < rows.length := by rw [hr]; exact i.isLt
      have hj : j.val < rows[i.val].length := by rw [hc _ (List.getElem_mem hi)]; exact j.isLt
      obtain ⟨v, h1, h2⟩ := ih i j rows[i.val] rows[i.val][j.val] (List.getElem?_eq_getElem hi) (List.getElem?_eq_getElem hj) hm
      cases v <;> simp only [NearV] at h2
      rename_i g
      refine ⟨g, h2, fun row e hrow he => ?_⟩
      rw [List.getElem?_eq_getElem hi] at hrow
      cases hrow
      rw [List.getElem?_eq_getElem hj] at he
      cases he
      exact h1
    choose g hg1 hg2 using hent
    have hrows : List.Forall₂ (List.Forall₂ fun b xs => Finishes (fun n => evalRec cfg n b ctx cur) (.ok (xs.map Value.scalar)))
        (rows.map fun row => row.map fun e => (e.tree cfg : AST F)) (List.ofFn fun i => List.ofFn fun j => [g i j]) := by
      rw [List.forall₂_map_left_iff, forall₂_ofFn]
      refine ⟨hr, fun i hi => ?_⟩
      rw [List.forall₂_map_left_iff, forall₂_ofFn]
      refine ⟨hc _ (List.getElem_mem _), fun j hj => ?_⟩
      exact hg2 ⟨i, hi⟩ ⟨j, hj⟩ _ _ (List.getElem?_eq_getElem _) (List.getElem?_eq_getElem _)
    have e2 : (treeRows cfg rows : List (List (AST F))) = rows.map fun row => row.map fun e => e.tree cfg := by
      rw [treeRows_eq]
      refine List.map_congr_left fun r _ => ?_
      simp [treeAll_eq]
    have e3 : ((rows.map fun row => row.map fun e => (e.tree cfg : AST F)).headD []).length = c + 1 := by
      cases rows with
      | nil => simp at hr
      | cons row rows => simpa using hc row (by simp)
    simp only [Ex.tree, e2, e3]
    split
    · next hrm =>
      refine ⟨_, matrix_singles hrows, ?_⟩
      show List.Forall₂ (List.Forall₂ Near) _ _
      rw [forall₂_ofFn]
      refine ⟨by simp, fun i hi => ?_⟩
      simp only [List.getElem_ofFn]
      rw [forall₂_ofFn]
      exact ⟨by simp, fun j hj => by rw [List.getElem_ofFn]; exact hg1 _ _⟩
    · next hrm =>
      have h1 := forall₂_transpose (n := c + 1) hrows (by
        intro row hrow
        obtain ⟨r', hr', rfl⟩ := List.mem_map.1 hrow
        simpa using hc r' hr')
      rw [transpose_ofFn] at h1
      refine ⟨_, matrix_singles (g := fun j i => g i j) h1, ?_⟩
      show List.Forall₂ (List.Forall₂ Near) _ _
      rw [forall₂_ofFn]
      refine ⟨by simp, fun i hi => ?_⟩
      simp only [List.getElem_ofFn]
      rw [forall₂_ofFn]
      exact ⟨by simp, fun j hj => by rw [List.getElem_ofFn]; exact hg1 _ _⟩
  | call f args params body os o hlen hf hne hp hl _ _ iha ihb =>
    obtain ⟨vs, h1, h2⟩ := collect (P := fun e v => Finishes (fun n => evalRec cfg n (e.tree cfg) ctx _) (.ok [v]))
      (Q := NearV) hlen fun i hi => iha i hi hm
    obtain ⟨w, h3, h4⟩ := ihb (hm.call hp h2)
    refine ⟨w, ?_, h4⟩
    have := call_finishes (args := args.map fun e => e.tree cfg) (hm.funs f params body hf) hne (by simpa using hl)
      (vals := vs.map fun v => [v]) (vss := [[w]])
      (by
        rw [List.forall₂_map_left_iff, List.forall₂_map_right_iff]
        exact h1)
      (by
        rw [choices_singletons]
        exact .cons h3 .nil)
    simpa only [Ex.tree, treeAll_eq, List.flatten_cons, List.flatten_nil, List.append_nil] using this
  | fn name op e o r _ hf ih =>
    obtain ⟨v, h1, h2⟩ := ih hm
    obtain ⟨w, h3, h4⟩ := fnR_ok hf h2 (.scalar (ofInt 0))
    exact ⟨w, simple_one (op := op) h1 (scalar_rec cfg ctx _ (ofInt 0)) h3, h4⟩
  | root a b p q r s _ _ _ hq hpow iha ihb =>
    obtain ⟨v, h1, h2⟩ := iha hm
    obtain ⟨w, h3, h4⟩ := ihb hm
    cases v <;> simp only [NearV] at h2
    cases w <;> simp only [NearV] at h4
    have one : Near (ofInt 1 : F) ⟨1, 0⟩ := by simpa using near_int (F := F) (n := 1) (by norm_num)
    exact ⟨.scalar _, simple_one (op := .root) h1 h3 rfl, near_pow h2 (near_div one h4 hq) hpow⟩
  | deriv e x a p ph f fh d q hprec _ hph _ _ hd hq iha ihf ihfh =>
    obtain ⟨v, h1, h2⟩ := iha hm
    cases v <;> simp only [NearV] at h2
    rename_i s
    have hstep : Near (stepH F cfg) (stepR u cfg.prec) := Libm.step cfg.prec hprec
    have h2h := near_add h2 hstep hph
    obtain ⟨fv, h3, h4⟩ := ihf (hm.set x h2)
    obtain ⟨fhv, h5, h6⟩ := ihfh (hm.set x h2h)
    cases fv <;> simp only [NearV] at h4
    cases fhv <;> simp only [NearV] at h6
    rename_i fv fhv
    refine ⟨.scalar _, ?_, near_div (near_add h6 (near_neg_right h4) hd) hstep hq⟩
    have := derivative_several (e := e.tree cfg) (x := x) (ps := [.scalar s]) (vss := [[_]]) h1 (.cons (C44_derivative cfg ctx x
      (e.tree cfg) (AST.fromValue (.scalar s)) s [_] [_] [_] (scalar_finishes cfg ctx s) h3 h5 rfl (.cons rfl .nil)) .nil)
    simpa [Ex.tree] using this
  | weaken e o o' _ hw ih =>
    obtain ⟨v, h1, h2⟩ := ih hm
    exact ⟨v, h1, near_weaker h2 hw⟩

end
end MUL
