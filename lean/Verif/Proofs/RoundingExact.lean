import Verif.Spec.Rounding
import Verif.Proofs.Denote
/-!
# The exact values of the error bounds are the mathematical values
-/

namespace MUL
open Spec

theorem sumR_val {p q r : Approx} (h : SumR p q r) : r.val = p.val + q.val := by cases h <;> rfl

theorem prodR_val {p q r : Approx} (h : ProdR p q r) : r.val = p.val * q.val := by cases h <;> rfl

theorem quotR_val {p q r : Approx} (h : QuotR p q r) : r.val = p.val / q.val ∧ q.val ≠ 0 := by
  cases h with
  | rounded x s y t h0 hlt _ => exact ⟨rfl, abs_pos.1 (lt_of_le_of_lt h0 hlt)⟩
  | exact x y hy _ => exact ⟨rfl, hy⟩

theorem forall₂_get? {α β : Type} {R : α → β → Prop} {l : List α} {o : List β} (h : List.Forall₂ R l o) {i : Nat} {b : β}
    (hb : o[i]? = some b) : ∃ a, l[i]? = some a ∧ R a b := by
  induction h generalizing i with
  | nil => simp at hb
  | @cons a b' l o h _ ih =>
    cases i with
    | zero =>
      simp only [List.getElem?_cons_zero, Option.some.injEq] at hb
      subst hb
      exact ⟨a, rfl, h⟩
    | succ i => exact ih hb

theorem each_get? {R : Approx → Approx → Approx → Prop} {l k o : List Approx} (h : Each R l k o) {i : Nat} {c : Approx} (hc : o[i]? = some c) :
    ∃ a b, l[i]? = some a ∧ k[i]? = some b ∧ R a b c := by
  obtain ⟨⟨a, b⟩, h1, h2⟩ := forall₂_get? h.1 hc
  rw [List.getElem?_zip_eq_some] at h1
  exact ⟨a, b, h1.1, h1.2, h2⟩

theorem each_length {R : Approx → Approx → Approx → Prop} {l k o : List Approx} (h : Each R l k o) : o.length = l.length := by
  rw [← h.1.length_eq, List.length_zip, ← h.2, Nat.min_self]

theorem dotR_val {l k : List Approx} {s r : Approx} (h : DotR l k s r) :
    r.val = s.val + ((l.zip k).map fun p => p.1.val * p.2.val).sum ∧ l.length = k.length := by
  induction h with
  | nil s => simp
  | cons hp hs _ ih =>
    rw [ih.1, sumR_val hs, prodR_val hp]
    simp [ih.2, add_assoc]

theorem dotR_sum {n : Nat} {l k : List Approx} {r : Approx} {x y : Fin n → ℝ} (h : DotR l k ⟨0, 0⟩ r) (hl : l.length = n)
    (hx : ∀ (i : Fin n) (a : Approx), l[i.val]? = some a → a.val = x i)
    (hy : ∀ (i : Fin n) (a : Approx), k[i.val]? = some a → a.val = y i) : r.val = ∑ i, x i * y i := by
  obtain ⟨h1, h2⟩ := dotR_val h
  rw [h1, ← List.sum_ofFn]
  simp only [zero_add]
  congr 1
  apply List.ext_getElem
  · simp [h2 ▸ hl, hl]
  · intro i h3 h4
    simp only [List.length_map, List.length_zip, lt_min_iff] at h3
    simp only [List.getElem_map, List.getElem_zip, List.getElem_ofFn]
    rw [hx ⟨i, by omega⟩ _ (List.getElem?_eq_getElem h3.1), hy ⟨i, by omega⟩ _ (List.getElem?_eq_getElem h3.2)]

theorem exactOf_neg {b : ObjR} {o : Obj} (h : ExactOf b.neg o) : ∃ p, ExactOf b p ∧ Neg1 p o := by
  cases b with
  | scalar a =>
    cases h with
    | scalar => exact ⟨_, .scalar a, by simpa [Approx.neg] using Neg1.scalar a.val⟩
  | vector l =>
    cases h with
    | vector l' x hl hx =>
      refine ⟨_, .vector l (-x) (by simpa using hl) ?_, by simpa using Neg1.vector (-x)⟩
      intro i a ha
      have := hx i a.neg (by simp [ha])
      simp only [Approx.neg] at this
      rw [Pi.neg_apply, ← this, neg_neg]
  | matrix m =>
    cases h with
    | matrix m' A hr hc hA =>
      refine ⟨_, .matrix m (-A) (by simpa using hr) ?_ ?_, by simpa using Neg1.matrix (-A)⟩
      · intro row hrow
        simpa using hc (row.map Approx.neg) (List.mem_map_of_mem hrow)
      · intro i j row a hrow ha
        have := hA i j (row.map Approx.neg) a.neg (by simp [hrow]) (by simp [ha])
        simp only [Approx.neg] at this
        rw [Matrix.neg_apply, ← this, neg_neg]

theorem neg_exactOf {b : ObjR} {p : Obj} (h : ExactOf b p) : ∃ o, ExactOf b.neg o ∧ Neg1 p o := by
  cases h with
  | scalar a => exact ⟨_, .scalar _, .scalar _⟩
  | vector l x hl hx =>
    refine ⟨_, .vector _ (-x) (by simpa using hl) ?_, .vector x⟩
    intro i a ha
    rw [List.getElem?_map, Option.map_eq_some_iff] at ha
    obtain ⟨b, hb, rfl⟩ := ha
    rw [Approx.neg, hx i b hb, Pi.neg_apply]
  | matrix m A hr hc hA =>
    refine ⟨_, .matrix _ (-A) (by simpa using hr) ?_ ?_, .matrix A⟩
    · intro row hrow
      obtain ⟨row', h', rfl⟩ := List.mem_map.1 hrow
      simpa using hc _ h'
    · intro i j row a hrow ha
      rw [List.getElem?_map, Option.map_eq_some_iff] at hrow
      obtain ⟨row', hb, rfl⟩ := hrow
      rw [List.getElem?_map, Option.map_eq_some_iff] at ha
      obtain ⟨b, hb', rfl⟩ := ha
      rw [Approx.neg, hA i j _ b hb hb', Matrix.neg_apply]

theorem addR_val {a b c : ObjR} {o p : Obj} (h : AddR a b c) (ha : ExactOf a o) (hb : ExactOf b p) :
    ∃ s d, ExactOf c s ∧ Sum2 o p s d := by
  cases h with
  | scalar h =>
    cases ha
    cases hb
    rename_i a b c
    have e := sumR_val h
    refine ⟨.scalar c.val, .scalar (a.val - b.val), .scalar c, ?_⟩
    rw [e]
    exact .scalar _ _
  | vector h =>
    cases ha with
    | vector l x hl hx =>
      cases hb with
      | @vector n' k y hk hy =>
        have hn := h.2
        subst hl
        obtain rfl := hn.trans hk
        refine ⟨_, _, .vector _ (x + y) (each_length h) ?_, .vector x y⟩
        intro i c hc
        obtain ⟨a, b, h1, h2, h3⟩ := each_get? h hc
        rw [sumR_val h3, hx i a h1, hy i b h2, Pi.add_apply]
  | @matrix n l k o hne hl hk hlen h =>
    cases ha with
    | @matrix r c m A hr hc hA =>
      cases hb with
      | @matrix r' c' m' B hr' hc' hB =>
        obtain ⟨row, rest, rfl⟩ := List.exists_cons_of_ne_nil hne
        obtain ⟨row', rest', rfl⟩ := List.exists_cons_of_ne_nil (show k ≠ [] by rintro rfl; simp at hlen)
        obtain rfl : n = c := (hl row (by simp)).symm.trans (hc row (by simp))
        obtain rfl : n = c' := (hk row' (by simp)).symm.trans (hc' row' (by simp))
        obtain rfl : rest.length + 1 = r := hr
        obtain rfl : rest.length + 1 = r' := hlen.trans hr'
        have hlo : o.length = rest.length + 1 := by rw [← h.length_eq, List.length_zip, ← hlen]; simp
        refine ⟨_, _, .matrix o (A + B) hlo ?_ ?_, .matrix A B⟩
        · intro ro hro
          obtain ⟨i, hi, rfl⟩ := List.mem_iff_getElem.1 hro
          obtain ⟨⟨u, v⟩, h1, h2⟩ := forall₂_get? h (List.getElem?_eq_getElem hi)
          rw [List.getElem?_zip_eq_some] at h1
          rw [each_length h2]
          exact hl _ (List.mem_of_getElem? h1.1)
        · intro i j ro a hro ha
          obtain ⟨⟨u, v⟩, h1, h2⟩ := forall₂_get? h hro
          rw [List.getElem?_zip_eq_some] at h1
          obtain ⟨p, q, h3, h4, h5⟩ := each_get? h2 ha
          rw [sumR_val h5, hA i j _ p h1.1 h3, hB i j _ q h1.2 h4, Matrix.add_apply]

theorem scaleV_val {n : Nat} {l o : List Approx} {t : Approx} {x : Fin n → ℝ} (h : List.Forall₂ (fun a r => ProdR a t r) l o)
    (hl : l.length = n) (hx : ∀ (i : Fin n) (a : Approx), l[i.val]? = some a → a.val = x i) : ExactOf (.vector o) (.vector (t.val • x)) := by
  refine .vector _ _ (h.length_eq.symm.trans hl) ?_
  intro i c hc
  obtain ⟨a, h1, h2⟩ := forall₂_get? h hc
  rw [prodR_val h2, hx i a h1, Pi.smul_apply, smul_eq_mul, mul_comm]

theorem scaleM_val {r c : Nat} {l o : List (List Approx)} {t : Approx} {A : Matrix (Fin r) (Fin c) ℝ}
    (h : List.Forall₂ (List.Forall₂ fun a r => ProdR a t r) l o) (hr : l.length = r) (hc : RectR c l)
    (hA : ∀ (i : Fin r) (j : Fin c) (row : List Approx) (a : Approx), l[i.val]? = some row → row[j.val]? = some a → a.val = A i j) :
    ExactOf (.matrix o) (.matrix (t.val • A)) := by
  refine .matrix _ _ (h.length_eq.symm.trans hr) ?_ ?_
  · intro ro hro
    obtain ⟨i, hi, rfl⟩ := List.mem_iff_getElem.1 hro
    obtain ⟨u, h1, h2⟩ := forall₂_get? h (List.getElem?_eq_getElem hi)
    rw [← h2.length_eq]
    exact hc _ (List.mem_of_getElem? h1)
  · intro i j ro a hro ha
    obtain ⟨u, h1, h2⟩ := forall₂_get? h hro
    obtain ⟨p, h3, h4⟩ := forall₂_get? h2 ha
    rw [prodR_val h4, hA i j _ p h1 h3, Matrix.smul_apply, smul_eq_mul, mul_comm]

theorem columnR_get? {c : Nat} {m : List (List Approx)} (hc : RectR c m) {j : Nat} (hj : j < c) (i : Nat) {a : Approx}
    (h : (columnR m j)[i]? = some a) : ∃ row, m[i]? = some row ∧ row[j]? = some a := by
  unfold columnR at h
  induction m generalizing i with
  | nil => simp at h
  | cons row m ih =>
    have hj' : j < row.length := by rw [hc row (by simp)]; exact hj
    rw [List.filterMap_cons, List.getElem?_eq_getElem hj'] at h
    cases i with
    | zero =>
      simp only [List.getElem?_cons_zero, Option.some.injEq] at h
      exact ⟨row, rfl, by rw [List.getElem?_eq_getElem hj', h]⟩
    | succ i => exact ih (fun r hr => hc r (by simp [hr])) i h

theorem mulR_val {a b c : ObjR} {o p : Obj} (h : MulR a b c) (ha : ExactOf a o) (hb : ExactOf b p) :
    ∃ s, ExactOf c s ∧ Prod2 o p s := by
  cases h with
  | @scalar a b c h =>
    cases ha
    cases hb
    refine ⟨_, .scalar c, ?_⟩
    rw [prodR_val h]
    exact .scalar _ _
  | scaleVector h =>
    cases ha
    cases hb with
    | vector l x hl hx => exact ⟨_, scaleV_val h hl hx, .scaleVector _ _⟩
  | vectorScale h =>
    cases hb
    cases ha with
    | vector l x hl hx => exact ⟨_, scaleV_val h hl hx, .vectorScale _ _⟩
  | scaleMatrix _ h =>
    cases ha
    cases hb with
    | matrix l A hr hc hA => exact ⟨_, scaleM_val h hr hc hA, .scaleMatrix _ _⟩
  | matrixScale _ h =>
    cases hb
    cases ha with
    | matrix l A hr hc hA => exact ⟨_, scaleM_val h hr hc hA, .matrixScale _ _⟩
  | @dot l k r h =>
    cases ha with
    | vector l x hl hx =>
      cases hb with
      | @vector n' k y hk hy =>
        subst hl
        obtain rfl : l.length = n' := by rw [(dotR_val h).2, hk]
        refine ⟨_, .scalar r, ?_⟩
        rw [dotR_sum h rfl hx hy]
        exact .dot x y
  | @apply m l o hne h =>
    cases ha with
    | @matrix r c m A hr hc hA =>
      cases hb with
      | @vector n x y hl hx =>
        subst hl
        obtain ⟨row, rest, rfl⟩ := List.exists_cons_of_ne_nil hne
        obtain rfl : rest.length + 1 = r := hr
        obtain rfl : l.length = c := by
          cases h with
          | cons h _ => rw [← (dotR_val h).2, hc row (by simp)]
        refine ⟨_, .vector o (A.mulVec y) (h.length_eq.symm.trans rfl) ?_, .apply A y⟩
        intro i d hd
        obtain ⟨u, h1, h2⟩ := forall₂_get? h hd
        rw [dotR_sum (x := fun j => A i j) h2 (hc _ (List.mem_of_getElem? h1)) (fun j a ha => hA i j u a h1 ha) hx]
        rfl
  | @matrix k c l m o hne hne' hl hk hm h =>
    cases ha with
    | @matrix r c₁ m₁ A hr hc hA =>
      cases hb with
      | @matrix r' c' m' B hr' hc' hB =>
        obtain ⟨row, rest, rfl⟩ := List.exists_cons_of_ne_nil hne
        obtain ⟨row', rest', rfl⟩ := List.exists_cons_of_ne_nil hne'
        obtain rfl : rest.length + 1 = r := hr
        obtain rfl : rest'.length + 1 = r' := hr'
        obtain rfl : rest'.length + 1 = k := hk
        obtain rfl : rest'.length + 1 = c₁ := (hl row (by simp)).symm.trans (hc row (by simp))
        obtain rfl : c = c' := (hm row' (by simp)).symm.trans (hc' row' (by simp))
        refine ⟨_, .matrix o (A * B) (h.length_eq.symm.trans rfl) ?_ ?_, .matrix A B⟩
        · intro ro hro
          obtain ⟨i, hi, rfl⟩ := List.mem_iff_getElem.1 hro
          obtain ⟨u, h1, h2⟩ := forall₂_get? h (List.getElem?_eq_getElem hi)
          rw [← h2.length_eq, List.length_range]
        · intro i j ro a hro ha
          obtain ⟨u, h1, h2⟩ := forall₂_get? h hro
          obtain ⟨j', h3, h4⟩ := forall₂_get? h2 ha
          obtain rfl : j.val = j' := by
            rw [List.getElem?_range j.2, Option.some.injEq] at h3
            exact h3
          rw [dotR_sum (x := fun q => A i q) (y := fun q => B q j) h4 (hc _ (List.mem_of_getElem? h1)) (fun q b hb => hA i q u b h1 hb)
            (fun q b hb => by
              obtain ⟨row, h5, h6⟩ := columnR_get? hc' j.2 q.val hb
              exact hB q j row b h5 h6)]
          rfl

theorem divR_val {a b c : ObjR} {o p : Obj} (h : DivR a b c) (ha : ExactOf a o) (hb : ExactOf b p) :
    ∃ s, ExactOf c s ∧ Quot2 o p s := by
  cases h with
  | @scalar a b c h =>
    cases ha
    cases hb
    refine ⟨_, .scalar c, ?_⟩
    rw [(quotR_val h).1]
    exact .scalar _ _ (quotR_val h).2
  | vector hq h =>
    cases hb
    rename_i b _
    cases ha with
    | vector l x hl hx =>
      refine ⟨_, scaleV_val h hl hx, ?_⟩
      convert Quot2.vector x b.val (quotR_val hq).2 using 2
      funext i
      rw [(quotR_val hq).1, Pi.smul_apply, smul_eq_mul]
      simp only
      ring
  | matrix _ hq h =>
    cases hb
    rename_i b _ _
    cases ha with
    | matrix l A hr hc hA =>
      refine ⟨_, scaleM_val h hr hc hA, ?_⟩
      convert Quot2.matrix A b.val (quotR_val hq).2 using 2
      funext i j
      rw [(quotR_val hq).1, Matrix.smul_apply, smul_eq_mul, Matrix.of_apply]
      simp only
      ring

theorem powR_val {u : ℝ} {a b c : Approx} (h : PowR u a b c) : Pow2 (.scalar a.val) (.scalar b.val) (.scalar c.val) := by
  cases h with
  | nat x s t n _ _ =>
    have := Pow2.int x (n : Int) (Or.inl (Int.natCast_nonneg n))
    simpa using this
  | real x s y w t hs hw h _ =>
    exact .pos x y (h x y (by simpa using hs) (by simpa using hw)).1

theorem padR_val {n : Nat} {l : List Approx} {x : Fin n → ℝ} (hl : l.length = n)
    (hx : ∀ (i : Fin n) (a : Approx), l[i.val]? = some a → a.val = x i) (i : Fin 3) : (padR l i.val).val = Spec.pad3 x i := by
  unfold padR Spec.pad3
  split
  · next h =>
    have hi : i.val < l.length := by omega
    rw [List.getD_eq_getElem?_getD, List.getElem?_eq_getElem hi]
    exact hx ⟨i.val, h⟩ _ (List.getElem?_eq_getElem hi)
  · next h =>
    rw [List.getD_eq_getElem?_getD, List.getElem?_eq_none (by omega)]
    rfl

theorem cross1_val {a b c d r : Approx} (h : Cross1 a b c d r) : r.val = a.val * b.val - c.val * d.val := by
  obtain ⟨p, q, h1, h2, h3⟩ := h
  rw [sumR_val h3, prodR_val h1, Approx.neg, prodR_val h2]
  ring

theorem opR_val {u : ℝ} {op : BinOp} {a b c : ObjR} {o p : Obj} (h : OpR u op a b c) (ha : ExactOf a o) (hb : ExactOf b p) :
    ∃ s, ExactOf c s ∧ Op2 op o p [s] := by
  cases h with
  | add h =>
    obtain ⟨s, d, h1, h2⟩ := addR_val h ha hb
    exact ⟨s, h1, .add h2⟩
  | sub h =>
    obtain ⟨q, h1, h2⟩ := neg_exactOf hb
    obtain ⟨s, d, h3, h4⟩ := addR_val h ha h1
    refine ⟨s, h3, ?_⟩
    cases h2 with
    | scalar y =>
      cases h4 with
      | scalar x _ => exact .sub (s := .scalar (x + y)) (by simpa [sub_eq_add_neg] using Sum2.scalar x y)
    | vector y =>
      cases h4 with
      | vector x _ => exact .sub (s := .vector (x + y)) (by simpa [sub_eq_add_neg] using Sum2.vector x y)
    | matrix B =>
      cases h4 with
      | matrix A _ => exact .sub (s := .matrix (A + B)) (by simpa [sub_eq_add_neg] using Sum2.matrix A B)
  | mult h =>
    obtain ⟨s, h1, h2⟩ := mulR_val h ha hb
    exact ⟨s, h1, .mult h2⟩
  | juxt h =>
    obtain ⟨s, h1, h2⟩ := mulR_val h ha hb
    exact ⟨s, h1, .juxt h2⟩
  | div h =>
    obtain ⟨s, h1, h2⟩ := divR_val h ha hb
    exact ⟨s, h1, .div h2⟩
  | pow h =>
    cases ha
    cases hb
    exact ⟨_, .scalar _, .pow (powR_val h)⟩
  | @cross l k x y z hlen h3 hx hy hz =>
    cases ha with
    | vector l v hl hv =>
      cases hb with
      | @vector n' k w hk hw =>
        subst hl
        obtain rfl : l.length = n' := by rw [hlen, hk]
        refine ⟨_, .vector [x, y, z] (crossProduct (Spec.pad3 v) (Spec.pad3 w)) rfl ?_, .cross v w h3⟩
        have e1 := cross1_val hx
        have e2 := cross1_val hy
        have e3 := cross1_val hz
        have p0 := padR_val rfl hv 0
        have p1 := padR_val rfl hv 1
        have p2 := padR_val rfl hv 2
        have q0 := padR_val hk hw 0
        have q1 := padR_val hk hw 1
        have q2 := padR_val hk hw 2
        simp only [Fin.val_zero, Fin.val_one, Fin.val_two] at p0 p1 p2 q0 q1 q2
        rw [p1, p2, q1, q2] at e1
        rw [p0, p2, q0, q2] at e2
        rw [p0, p1, q0, q1] at e3
        intro i a ha
        rw [cross_apply]
        match i, ha with
        | 0, ha =>
          obtain rfl : x = a := by simpa using ha
          simpa using e1
        | 1, ha =>
          obtain rfl : y = a := by simpa using ha
          simpa using e2
        | 2, ha =>
          obtain rfl : z = a := by simpa using ha
          simpa using e3
  | @get l i h h0 hlen =>
    cases ha with
    | vector l x hl hx =>
      cases hb with
      | scalar b =>
        subst hl
        refine ⟨_, .scalar _, ?_⟩
        rw [hx ⟨i, h⟩ _ (List.getElem?_eq_getElem h)]
        exact Op2.get x ⟨i, h⟩ h0 (by omega)

theorem sqrtR_val {p r : Approx} (h : SqrtR p r) : r.val = Real.sqrt p.val ∧ 0 ≤ p.val := by
  cases h with
  | rounded x s t hs h => exact ⟨rfl, (h x (by simpa using hs)).1⟩
  | exact x h _ => exact ⟨rfl, h⟩

theorem fnR_val {u : ℝ} {op : SimpleOp} {a c : ObjR} {o : Obj} (h : FnR u op a c) (ha : ExactOf a o) : ∃ s, ExactOf c s ∧ Fn1 op o s := by
  cases h with
  | elementary x s t hop hs h =>
    have hD := (h x (by simpa using hs)).1
    cases ha
    refine ⟨_, .scalar _, ?_⟩
    cases hop with
    | sin => exact .sin x
    | cos => exact .cos x
    | tan => exact .tan x hD.1
    | arcsin => exact .arcsin x hD.1 hD.2
    | arccos => exact .arccos x hD.1 hD.2
    | arctan => exact .arctan x
    | ln => exact .ln x hD
  | abs x s =>
    cases ha
    exact ⟨_, .scalar _, .abs x⟩
  | sqrt h =>
    cases ha
    refine ⟨_, .scalar _, ?_⟩
    rw [(sqrtR_val h).1]
    exact .sqrt _ (sqrtR_val h).2
  | length hd h =>
    cases ha with
    | vector l x hl hx =>
      refine ⟨_, .scalar _, ?_⟩
      rw [(sqrtR_val h).1, dotR_sum hd hl hx hx]
      have := Fn1.length x
      simpa only [pow_two] using this


theorem Spec.EnvExact.set {ρ : EnvR} {σ : Env} (h : EnvExact ρ σ) (x : Str) (a : Approx) :
    EnvExact (ρ.set x (.scalar a)) (σ.set x [.scalar a.val]) := by
  intro n o hn
  unfold EnvR.set at hn
  unfold Env.set
  split at hn
  · next hx =>
    rw [if_pos hx]
    cases hn
    exact ⟨_, rfl, .scalar a⟩
  · next hx =>
    rw [if_neg hx]
    exact h n o hn

theorem Spec.EnvExact.bind {ρ : EnvR} {σ : Env} (h : EnvExact ρ σ) (params : List Str) {os : List ObjR} {objs : List Obj}
    (hos : List.Forall₂ ExactOf os objs) : EnvExact (ρ.bind params os) (σ.bind params objs) := by
  intro n o hn
  unfold EnvR.bind at hn
  unfold Env.bind
  have key : (∃ o obj, (params.zip os).find? (fun p => p.1 = n) = some (n, o) ∧ (params.zip objs).find? (fun p => p.1 = n) = some (n, obj) ∧
      ExactOf o obj) ∨ ((params.zip os).find? (fun p => p.1 = n) = none ∧ (params.zip objs).find? (fun p => p.1 = n) = none) := by
    clear hn h
    induction hos generalizing params with
    | nil => right; simp
    | @cons a o args os h1 _ ih =>
      cases params with
      | nil => right; simp
      | cons p params =>
        simp only [List.zip_cons_cons, List.find?_cons]
        by_cases hpn : p = n
        · left
          subst hpn
          exact ⟨a, o, by simp, by simp, h1⟩
        · simp only [hpn, decide_false]
          exact ih params
  rcases key with ⟨o', obj, e1, e2, e3⟩ | ⟨e1, e2⟩
  · rw [e1] at hn
    cases hn
    rw [e2]
    exact ⟨obj, rfl, e3⟩
  · rw [e1] at hn
    rw [e2]
    exact h n o hn

theorem rounds_denotes {cfg : Cfg} {u : ℝ} {φ : Defs} {cur : Str} {ρ : EnvR} {e : Ex} {o : ObjR} (h : Rounds cfg u φ cur ρ e o) {σ : Env}
    (hσ : EnvExact ρ σ) : ∃ obj, Denotes cfg φ cur σ e [obj] ∧ ExactOf o obj := by
  induction h generalizing σ with
  | num ip fp _ => exact ⟨_, .num ip fp, .scalar _⟩
  | numExact ip fp _ => exact ⟨_, .num ip fp, .scalar _⟩
  | var x o hx =>
    obtain ⟨obj, h1, h2⟩ := hσ x o hx
    exact ⟨obj, .var x _ h1, h2⟩
  | paren e o _ ih =>
    obtain ⟨obj, h1, h2⟩ := ih hσ
    exact ⟨obj, .paren e _ h1, h2⟩
  | neg e o _ ih =>
    obtain ⟨obj, h1, h2⟩ := ih hσ
    obtain ⟨p, h3, h4⟩ := neg_exactOf h2
    exact ⟨p, .neg e _ _ h1 (.cons h4 .nil), h3⟩
  | bin op l r a b c _ _ hop ihl ihr =>
    obtain ⟨v, h1, h2⟩ := ihl hσ
    obtain ⟨w, h3, h4⟩ := ihr hσ
    obtain ⟨s, h5, h6⟩ := opR_val hop h2 h4
    exact ⟨s, Denotes.bin op l r [v] [w] [[s]] h1 h3 (.cons h6 .nil), h5⟩
  | @vec cur ρ es as hlen _ ih =>
    have hex : ∀ i (hi : i < es.length), Denotes cfg φ cur σ es[i] [.scalar (as[i]'(hlen ▸ hi)).val] := by
      intro i hi
      obtain ⟨obj, h1, h2⟩ := ih i hi hσ
      cases h2
      exact h1
    have := Denotes.vec (cfg := cfg) (φ := φ) (ρ := σ) es (as.map fun a => [a.val]) (by simpa using hlen) (fun i hi => by simpa using hex i hi)
    rw [show (as.map fun a => [a.val]) = (as.map Approx.val).map (fun x => [x]) by simp, choices_singletons] at this
    refine ⟨_, this, .vector _ _ (by simp) ?_⟩
    intro i a ha
    simp only [Fin.getElem_fin, List.getElem_map]
    have hi : i.val < as.length := by simpa using i.2
    rw [List.getElem?_eq_getElem hi, Option.some.injEq] at ha
    rw [ha]
  | @mat cur ρ r c rows A hr hc _ ih =>
    have := Denotes.mat (cfg := cfg) (φ := φ) (cur := cur) (ρ := σ) rows (fun i j => (A i j).val) hr hc (fun i j row e hrow he => by
      obtain ⟨obj, h1, h2⟩ := ih i j row e hrow he hσ
      cases h2
      exact h1)
    refine ⟨_, this, ?_⟩
    split
    · refine .matrix _ _ (by simp) ?_ ?_
      · intro row hrow
        obtain ⟨i, rfl⟩ := List.mem_ofFn.1 hrow
        simp
      · intro i j row a hrow ha
        rw [List.getElem?_eq_getElem (by rw [List.length_ofFn]; exact Fin.is_lt _), Option.some.injEq, List.getElem_ofFn] at hrow
        subst hrow
        rw [List.getElem?_eq_getElem (by rw [List.length_ofFn]; exact Fin.is_lt _), Option.some.injEq, List.getElem_ofFn] at ha
        subst ha
        rfl
    · refine .matrix _ _ (by simp) ?_ ?_
      · intro row hrow
        obtain ⟨i, rfl⟩ := List.mem_ofFn.1 hrow
        simp
      · intro i j row a hrow ha
        rw [List.getElem?_eq_getElem (by rw [List.length_ofFn]; exact Fin.is_lt _), Option.some.injEq, List.getElem_ofFn] at hrow
        subst hrow
        rw [List.getElem?_eq_getElem (by rw [List.length_ofFn]; exact Fin.is_lt _), Option.some.injEq, List.getElem_ofFn] at ha
        subst ha
        rfl
  | call f args params body os o hlen hf hne hp hl _ _ iha ihb =>
    obtain ⟨objs, h1, h2⟩ := collect (P := fun e obj => Denotes cfg φ _ σ e [obj]) (Q := fun obj o => ExactOf o obj) hlen
      fun i hi => iha i hi hσ
    have h2' : List.Forall₂ ExactOf os objs := h2.flip
    obtain ⟨res, h3, h4⟩ := ihb (hσ.bind params h2')
    refine ⟨res, ?_, h4⟩
    have hlen' : args.length = objs.length := h1.length_eq
    have := Denotes.call (cfg := cfg) (φ := φ) (ρ := σ) f args params body (objs.map fun o => [o]) (by simpa using hlen') (fun _ => [res]) hf hne hp hl
      (fun i hi => by simpa using (List.forall₂_iff_get.1 h1).2 i hi (hlen' ▸ hi))
      (fun p hp => by
        rw [choices_singletons, List.mem_singleton] at hp
        subst hp
        exact h3)
    rw [choices_singletons] at this
    simpa using this
  | fn name op e o r _ hf ih =>
    obtain ⟨obj, h1, h2⟩ := ih hσ
    obtain ⟨s, h3, h4⟩ := fnR_val hf h2
    exact ⟨s, .fn name op e _ _ h1 (.cons h4 .nil), h3⟩
  | root a b p q r s _ _ hp hq hpow iha ihb =>
    obtain ⟨v, h1, h2⟩ := iha hσ
    obtain ⟨w, h3, h4⟩ := ihb hσ
    cases h2
    cases h4
    obtain ⟨e1, e2⟩ := quotR_val hq
    refine ⟨_, .root a b _ _ [.scalar s.val] h1 h3 (.cons ?_ .nil), .scalar s⟩
    have e3 : s.val = p.val ^ (1 / q.val) := by
      rw [← e1]
      cases hpow with
      | nat x s t n _ _ => exact (Real.rpow_natCast x n).symm
      | real => rfl
    rw [e3]
    exact .pos _ _ hp e2
  | deriv e x a p ph f fh d q _ _ hph _ _ hd hq iha ihf ihfh =>
    obtain ⟨v, h1, h2⟩ := iha hσ
    cases h2
    obtain ⟨v, h3, h4⟩ := ihf (hσ.set x p)
    cases h4
    obtain ⟨v, h5, h6⟩ := ihfh (hσ.set x ph)
    cases h6
    have e1 := sumR_val hph
    simp only [stepR] at e1
    have hpos : (0 : ℝ) < 10 ^ (-(cfg.prec : Int)) := zpow_pos (by norm_num) _
    have := Denotes.deriv (cfg := cfg) (φ := φ) (ρ := σ) e x a [p.val] (fun (_ : Fin 1) t => if t = p.val then f.val else fh.val) h1 (by
      intro t ht y hy
      obtain rfl : t = p.val := by simpa using ht
      rcases hy with rfl | rfl
      · simpa using h3
      · rw [← e1]
        have hne : ph.val ≠ p.val := by rw [e1]; linarith
        simpa [hne] using h5)
    refine ⟨_, this, ?_⟩
    have e2 : q.val = (fh.val - f.val) / 10 ^ (-(cfg.prec : Int)) := by
      rw [(quotR_val hq).1, sumR_val hd, Approx.neg, ← sub_eq_add_neg]
      rfl
    have hne : p.val + 10 ^ (-(cfg.prec : Int)) ≠ p.val := by linarith
    have := ExactOf.scalar q
    rw [e2] at this
    simpa [hne] using this
  | weaken e o o' _ hw ih =>
    obtain ⟨obj, h1, h2⟩ := ih hσ
    refine ⟨obj, h1, ?_⟩
    cases hw
    cases h2
    exact .scalar _

end MUL
