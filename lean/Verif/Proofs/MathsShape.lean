import Verif.Model.Eval
import Verif.Proofs.OutLemmas
/-!
# What the index loops of `maths` compute

Each loop over indices is rewritten into the corresponding list operation. All statements hold for every
number type.
-/

set_option linter.unusedSectionVars false

namespace MUL
open Out

/-- `m` has `r` rows of `c` entries. -/
def Rect {α : Type} (r c : Nat) (m : List (List α)) : Prop := m.length = r ∧ ∀ l ∈ m, l.length = c

section loops
variable {ε α β γ δ : Type}

theorem idx_cons_zero (x : α) (l : List α) : (idx (x :: l) 0 : Out ε α) = .ok x := rfl
theorem idx_cons_succ (x : α) (l : List α) (i : Nat) : (idx (x :: l) (i + 1) : Out ε α) = idx l i := by
  simp [idx]

theorem mapM_map' (f : α → β) (g : β → Out ε γ) (l : List α) : (l.map f).mapM g = l.mapM fun a => g (f a) := by
  induction l with
  | nil => rfl
  | cons a l ih => simp only [List.map_cons, List.mapM_cons, ih]

theorem foldlM_map' (f : α → β) (g : γ → β → Out ε γ) (l : List α) (b : γ) :
    (l.map f).foldlM g b = l.foldlM (fun b a => g b (f a)) b := by
  induction l generalizing b with
  | nil => rfl
  | cons a l ih => simp only [List.map_cons, List.foldlM_cons, ih]

theorem mapM_range_idx (a : List α) (f : α → Out ε β) :
    ((List.range a.length).mapM fun i => idx a i >>= f) = a.mapM f := by
  induction a with
  | nil => rfl
  | cons x a ih =>
    simp only [List.length_cons, List.range_succ_eq_map, List.mapM_cons, mapM_map', idx_cons_zero, idx_cons_succ, ok_bind, ih]

theorem mapM_range_idx2 (a : List α) (b : List β) (h : a.length = b.length) (f : α → β → Out ε γ) :
    ((List.range a.length).mapM fun i => idx a i >>= fun x => idx b i >>= fun y => f x y) =
      (a.zip b).mapM fun p => f p.1 p.2 := by
  induction a generalizing b with
  | nil => rfl
  | cons x a ih =>
    cases b with
    | nil => simp at h
    | cons y b =>
      simp only [List.length_cons, List.range_succ_eq_map, List.mapM_cons, mapM_map', idx_cons_zero, idx_cons_succ, ok_bind,
        List.zip_cons_cons]
      rw [ih b (by simpa using h)]

theorem foldlM_range_idx2 (a : List α) (b : List β) (h : a.length = b.length) (f : γ → α → β → Out ε γ) (s : γ) :
    ((List.range a.length).foldlM (fun s i => idx a i >>= fun x => idx b i >>= fun y => f s x y) s) =
      (a.zip b).foldlM (fun s p => f s p.1 p.2) s := by
  induction a generalizing b s with
  | nil => rfl
  | cons x a ih =>
    cases b with
    | nil => simp at h
    | cons y b =>
      simp only [List.length_cons, List.range_succ_eq_map, List.foldlM_cons, foldlM_map', idx_cons_zero, idx_cons_succ, ok_bind,
        List.zip_cons_cons]
      refine Out.bind_congr fun s' _ => ?_
      exact ih b (by simpa using h) s'

theorem mapM_ok (f : α → β) (l : List α) : (l.mapM fun a => (.ok (f a) : Out ε β)) = .ok (l.map f) :=
  mapM_ok_of_forall fun _ _ => rfl

theorem foldlM_ok (f : β → α → β) (l : List α) (b : β) :
    (l.foldlM (fun b a => (.ok (f b a) : Out ε β)) b) = .ok (l.foldl f b) :=
  foldlM_ok_of_forall b fun _ _ _ => rfl

theorem mapM_range_rows {c : Nat} (a : List (List α)) (h : ∀ l ∈ a, l.length = c) (f : α → Out ε β) :
    ((List.range a.length).mapM fun i => (List.range c).mapM fun j => idx2 a i j >>= f) =
      a.mapM fun l => l.mapM f := by
  rw [← mapM_range_idx a (fun l => l.mapM f)]
  apply mapM_congr
  intro i hi
  have hi : i < a.length := List.mem_range.1 hi
  rw [idx_lt hi, ok_bind, ← mapM_range_idx a[i], h _ (List.getElem_mem hi)]
  apply mapM_congr
  intro j _
  simp only [idx2]
  rw [idx_lt hi, ok_bind]

theorem mapM_range_rows2 {c : Nat} (a : List (List α)) (b : List (List β)) (hab : a.length = b.length)
    (ha : ∀ l ∈ a, l.length = c) (hb : ∀ l ∈ b, l.length = c) (f : α → β → Out ε γ) :
    ((List.range a.length).mapM fun i => (List.range c).mapM fun j =>
        idx2 a i j >>= fun x => idx2 b i j >>= fun y => f x y) =
      (a.zip b).mapM fun p => (p.1.zip p.2).mapM fun q => f q.1 q.2 := by
  rw [← mapM_range_idx2 a b hab (fun l m => (l.zip m).mapM fun q => f q.1 q.2)]
  apply mapM_congr
  intro i hi
  have hi : i < a.length := List.mem_range.1 hi
  have hi' : i < b.length := by omega
  rw [idx_lt hi, ok_bind, idx_lt hi', ok_bind, ← mapM_range_idx2]
  · rw [ha _ (List.getElem_mem hi)]
    apply mapM_congr
    intro j _
    simp only [idx2]
    rw [idx_lt hi, ok_bind, idx_lt hi', ok_bind]
  · rw [ha _ (List.getElem_mem hi), hb _ (List.getElem_mem hi')]

theorem zip_map_uncurry (f : α → β → γ) (a : List α) (b : List β) :
    ((a.zip b).map fun p => f p.1 p.2) = List.zipWith f a b := by
  rw [List.map_zip_eq_zipWith]
  rfl

end loops

section
variable {F : Type} [FArith F]
open FArith

/-- Sum of the products of corresponding entries, from the left, starting with 0. -/
def dot (a b : List F) : F := (a.zip b).foldl (fun s p => add s (mul p.1 p.2)) (ofInt 0)

/-- Column `j` of a list of rows. -/
def col {α : Type} (m : List (List α)) (j : Nat) : List α := m.filterMap fun r => r[j]?

theorem vadd_eq (a b : List F) (h : a.length = b.length) : vadd a b = .ok (.vector (List.zipWith add a b)) := by
  unfold vadd
  rw [if_neg (by simpa using h), mapM_range_idx2 a b h (fun x y => .ok (add x y)), mapM_ok, zip_map_uncurry]
  rfl

theorem vadd_err (a b : List F) (h : a.length ≠ b.length) : vadd a b = .err "Vectors have different dimensions!" := by
  unfold vadd
  rw [if_pos h]

theorem madd_eq {r c : Nat} (hr : 0 < r) {a b : List (List F)} (ha : Rect r c a) (hb : Rect r c b) :
    madd a b = .ok (.matrix (List.zipWith (List.zipWith add) a b)) := by
  unfold madd
  have hla : 0 < a.length := by rw [ha.1]; exact hr
  have hlb : 0 < b.length := by rw [hb.1]; exact hr
  rw [if_neg (by rw [ha.1, hb.1]; simp), idx_lt hla, ok_bind, idx_lt hlb, ok_bind,
    if_neg (by rw [ha.2 _ (List.getElem_mem hla), hb.2 _ (List.getElem_mem hlb)]; simp)]
  rw [ha.2 _ (List.getElem_mem hla), mapM_range_rows2 a b (by rw [ha.1, hb.1]) ha.2 hb.2 (fun x y => .ok (add x y))]
  simp only [mapM_ok, zip_map_uncurry, ok_bind]

theorem madd_err {r c r' c' : Nat} {a b : List (List F)} (ha : Rect r c a) (hb : Rect r' c' b) (hr : 0 < r) (hr' : 0 < r')
    (h : r ≠ r' ∨ c ≠ c') : madd a b = .err "Matrices have different dimensions!" := by
  unfold madd
  have hla : 0 < a.length := by rw [ha.1]; exact hr
  have hlb : 0 < b.length := by rw [hb.1]; exact hr'
  by_cases hrr : r = r'
  · rw [if_neg (by rw [ha.1, hb.1, hrr]; simp), idx_lt hla, ok_bind, idx_lt hlb, ok_bind,
      if_pos (by rw [ha.2 _ (List.getElem_mem hla), hb.2 _ (List.getElem_mem hlb)]; rcases h with h | h; exact absurd hrr h; exact h)]
  · rw [if_pos (by rw [ha.1, hb.1]; exact hrr)]

theorem rect_map {α β : Type} {r c : Nat} {a : List (List α)} (h : Rect r c a) (f : α → β) :
    Rect r c (a.map fun l => l.map f) := by
  refine ⟨by rw [List.length_map, h.1], ?_⟩
  intro l hl
  obtain ⟨m, hm, rfl⟩ := List.mem_map.1 hl
  rw [List.length_map, h.2 m hm]

theorem rect_zipWith {α β γ : Type} {r c : Nat} {a : List (List α)} {b : List (List β)} (ha : Rect r c a) (hb : Rect r c b)
    (f : α → β → γ) : Rect r c (List.zipWith (List.zipWith f) a b) := by
  refine ⟨by rw [List.length_zipWith, ha.1, hb.1, Nat.min_self], ?_⟩
  intro l hl
  rw [← zip_map_uncurry] at hl
  obtain ⟨p, hp, rfl⟩ := List.mem_map.1 hl
  rw [List.length_zipWith, ha.2 _ (List.of_mem_zip hp).1, hb.2 _ (List.of_mem_zip hp).2, Nat.min_self]

theorem map_rows_eq {ε : Type} {r c : Nat} {b : List (List F)} (hb : Rect r c b) (f : F → F) :
    ((List.range b.length).mapM fun i => idx b 0 >>= fun b0 => (List.range b0.length).mapM fun j =>
      idx2 b i j >>= fun y => (.ok (f y) : Out ε F)) = .ok (b.map fun l => l.map f) := by
  cases b with
  | nil => rfl
  | cons b0 b =>
    simp only [idx_cons_zero, ok_bind]
    rw [hb.2 b0 (by simp), mapM_range_rows (b0 :: b) hb.2 (fun y => .ok (f y))]
    simp only [mapM_ok]

theorem smmult_eq {r c : Nat} (a : F) {b : List (List F)} (hb : Rect r c b) :
    smmult a b = .ok (.matrix (b.map fun l => l.map fun y => mul y a)) := by
  unfold smmult
  rw [map_rows_eq hb (fun y => mul y a)]
  rfl

theorem msub_eq {r c : Nat} (hr : 0 < r) {a b : List (List F)} (ha : Rect r c a) (hb : Rect r c b) :
    msub a b = .ok (.matrix (List.zipWith (List.zipWith add) a (b.map fun l => l.map fun y => mul y (ofInt (-1))))) := by
  unfold msub
  rw [map_rows_eq hb (fun y => mul y (ofInt (-1))), ok_bind, madd_eq hr ha (rect_map hb _)]

theorem msub_err {r c r' c' : Nat} {a b : List (List F)} (ha : Rect r c a) (hb : Rect r' c' b) (hr : 0 < r) (hr' : 0 < r')
    (h : r ≠ r' ∨ c ≠ c') : msub a b = .err "Matrices have different dimensions!" := by
  unfold msub
  rw [map_rows_eq hb (fun y => mul y (ofInt (-1))), ok_bind, madd_err ha (rect_map hb _) hr hr' h]

theorem dotM_eq {ε : Type} (a b : List F) (h : a.length = b.length) :
    ((List.range a.length).foldlM (fun sum i => idx a i >>= fun x => idx b i >>= fun y =>
      (.ok (add sum (mul x y)) : Out ε F)) (ofInt 0)) = .ok (dot a b) := by
  rw [foldlM_range_idx2 a b h (fun s x y => .ok (add s (mul x y))), foldlM_ok]
  rfl

theorem vvmult_eq (a b : List F) (h : a.length = b.length) : vvmult a b = .ok (.scalar (dot a b)) := by
  unfold vvmult
  rw [if_neg (by simpa using h), dotM_eq a b h]
  rfl

theorem vvdiv_eq (a b : List F) (h : a.length = b.length) :
    vvdiv a b = .ok (.scalar ((a.zip b).foldl (fun s p => add s (div p.1 p.2)) (ofInt 0))) := by
  unfold vvdiv
  rw [if_neg (by simpa using h), foldlM_range_idx2 a b h (fun s x y => .ok (add s (div x y))), foldlM_ok]
  rfl

theorem mvmult_eq {r c : Nat} (hr : 0 < r) {a : List (List F)} {b : List F} (ha : Rect r c a) (hb : b.length = c) :
    mvmult a b = .ok (.vector (a.map fun l => dot l b)) := by
  unfold mvmult
  have hla : 0 < a.length := by rw [ha.1]; exact hr
  rw [idx_lt hla, ok_bind, if_neg (by rw [ha.2 _ (List.getElem_mem hla), hb]; simp)]
  have := mapM_range_idx (ε := String) a (fun ai => (List.range ai.length).foldlM (fun sum j => idx ai j >>= fun x =>
    idx b j >>= fun y => (.ok (add sum (mul x y)) : Out String F)) (ofInt 0))
  rw [this, mapM_ok_of_forall (g := fun l => dot l b)]
  · rfl
  · intro l hl
    exact dotM_eq l b (by rw [ha.2 l hl, hb])

theorem mvmult_err {r c : Nat} (hr : 0 < r) {a : List (List F)} {b : List F} (ha : Rect r c a) (hb : b.length ≠ c) :
    mvmult a b = .err "Vector and matrix have incompatible dimensions!" := by
  unfold mvmult
  have hla : 0 < a.length := by rw [ha.1]; exact hr
  rw [idx_lt hla, ok_bind, if_pos (by rw [ha.2 _ (List.getElem_mem hla)]; exact fun h => hb h.symm)]

theorem col_cons {α : Type} (r : List α) (m : List (List α)) (j : Nat) (hj : j < r.length) :
    col (r :: m) j = r[j] :: col m j := by
  simp [col, List.filterMap_cons, List.getElem?_eq_getElem hj]

theorem col_length {α : Type} {r c : Nat} {m : List (List α)} (h : Rect r c m) {j : Nat} (hj : j < c) : (col m j).length = r := by
  obtain ⟨h1, h2⟩ := h
  subst h1
  induction m with
  | nil => rfl
  | cons l m ih =>
    rw [col_cons l m j (by rw [h2 l (by simp)]; exact hj), List.length_cons, List.length_cons,
      ih fun l hl => h2 l (by simp [hl])]

theorem idx2_col {ε α : Type} {c : Nat} {m : List (List α)} (h2 : ∀ l ∈ m, l.length = c) {j : Nat} (hj : j < c) (k : Nat) :
    (idx2 m k j : Out ε α) = idx (col m j) k := by
  induction m generalizing k with
  | nil => rfl
  | cons l m ih =>
    have hl : j < l.length := by rw [h2 l (by simp)]; exact hj
    rw [col_cons l m j hl]
    cases k with
    | zero =>
      simp only [idx2, idx_cons_zero, ok_bind]
      rw [idx_lt hl]
    | succ k =>
      rw [idx_cons_succ, ← ih (fun l hl => h2 l (by simp [hl])) k]
      simp only [idx2, idx_cons_succ]

theorem mmmult_eq {n k m : Nat} (hn : 0 < n) (hk : 0 < k) {a b : List (List F)} (ha : Rect n k a) (hb : Rect k m b) :
    mmmult a b = .ok (.matrix (a.map fun l => (List.range m).map fun j => dot l (col b j))) := by
  unfold mmmult
  have hla : 0 < a.length := by rw [ha.1]; exact hn
  have hlb : 0 < b.length := by rw [hb.1]; exact hk
  rw [idx_lt hla, ok_bind, if_neg (by rw [ha.2 _ (List.getElem_mem hla), hb.1]; simp), ha.2 _ (List.getElem_mem hla),
    idx_lt hlb]
  simp only [ok_bind]
  rw [hb.2 _ (List.getElem_mem hlb)]
  have : ((List.range a.length).mapM fun i => (List.range m).mapM fun j =>
      (List.range k).foldlM (fun sum k => idx2 a i k >>= fun x => idx2 b k j >>= fun y =>
        (.ok (add sum (mul x y)) : Out String F)) (ofInt 0)) =
      .ok (a.map fun l => (List.range m).map fun j => dot l (col b j)) := by
    refine Eq.trans ?_ ((mapM_range_idx a _).trans (mapM_ok _ a))
    apply mapM_congr
    intro i hi
    have hi : i < a.length := List.mem_range.1 hi
    rw [idx_lt hi, ok_bind]
    apply mapM_ok_of_forall
    intro j hj
    have hj : j < m := List.mem_range.1 hj
    have hlen : a[i].length = k := ha.2 _ (List.getElem_mem hi)
    rw [← dotM_eq a[i] (col b j) (by rw [hlen, col_length hb hj]), hlen]
    congr 1
    funext sum q
    rw [idx2_col hb.2 hj q]
    simp only [idx2]
    rw [idx_lt hi, ok_bind]
  rw [this]
  rfl

theorem mmmult_err {n k k' m : Nat} (hn : 0 < n) {a b : List (List F)} (ha : Rect n k a) (hb : Rect k' m b) (h : k ≠ k') :
    mmmult a b = .err "Matrices have incompatible dimensions!" := by
  unfold mmmult
  have hla : 0 < a.length := by rw [ha.1]; exact hn
  rw [idx_lt hla, ok_bind, if_pos (by rw [ha.2 _ (List.getElem_mem hla), hb.1]; exact h)]

theorem rect_mul {n k m : Nat} {a b : List (List F)} (ha : Rect n k a) :
    Rect n m (a.map fun l => (List.range m).map fun j => dot l (col b j)) := by
  refine ⟨by rw [List.length_map, ha.1], ?_⟩
  intro l hl
  obtain ⟨x, _, rfl⟩ := List.mem_map.1 hl
  simp

end
end MUL
