import Verif.Proofs.MathsShape
/-!
# Cross product, powers, determinant, elimination: what the index loops compute
-/

set_option linter.unusedSectionVars false

namespace MUL
open Out

section
variable {F : Type} [FArith F]
open FArith

/-! ## cross product -/

/-- The first three entries, missing ones are 0. -/
def pad3 (a : List F) : List F := (a ++ [ofInt 0, ofInt 0, ofInt 0]).take 3

/-- The three coordinates of the cross product. -/
def crossL (a b : List F) : List F :=
  match pad3 a, pad3 b with
  | [a0, a1, a2], [b0, b1, b2] =>
    [sub (mul a1 b2) (mul a2 b1), sub (mul a2 b0) (mul a0 b2), sub (mul a0 b1) (mul a1 b0)]
  | _, _ => []

theorem vcross_eq (a b : List F) (h : a.length = b.length) (h3 : a.length ≤ 3) :
    vcross a b = .ok (.vector (crossL a b)) := by
  unfold vcross
  rw [if_neg (by simpa using h), if_neg (by omega)]
  match a, b, h, h3 with
  | [], [], _, _ => rfl
  | [_], [_], _, _ => rfl
  | [_, _], [_, _], _, _ => rfl
  | [_, _, _], [_, _, _], _, _ => rfl

theorem crossL_length (a b : List F) (h : a.length = b.length) (h3 : a.length ≤ 3) : (crossL a b).length = 3 := by
  match a, b, h, h3 with
  | [], [], _, _ => rfl
  | [_], [_], _, _ => rfl
  | [_, _], [_, _], _, _ => rfl
  | [_, _, _], [_, _, _], _, _ => rfl

theorem vcross_err1 (a b : List F) (h : a.length ≠ b.length) : vcross a b = .err "Vectors have different dimensions!" := by
  unfold vcross
  rw [if_pos h]

theorem vcross_err2 (a b : List F) (h : a.length = b.length) (h3 : 3 < a.length) :
    vcross a b = .err "Can't compute cross product with dim(V) > 3!" := by
  unfold vcross
  rw [if_neg (by simpa using h), if_pos h3]

/-! ## powers -/

/-- Matrix product of lists of rows; `m` is the number of columns of `b`. -/
def mulL (m : Nat) (a b : List (List F)) : List (List F) :=
  a.map fun l => (List.range m).map fun j => dot l (col b j)

/-- `r` rows of `c` entries, 1 on the diagonal. -/
def eyeL (r c : Nat) : List (List F) :=
  (List.range r).map fun i => (List.range c).map fun j => if i = j then ofInt 1 else ofInt 0

theorem rect_eye (r c : Nat) : Rect r c (eyeL r c : List (List F)) := by
  refine ⟨by simp [eyeL], ?_⟩
  intro l hl
  obtain ⟨i, _, rfl⟩ := List.mem_map.1 hl
  simp

theorem rect_mulL {n k : Nat} (m : Nat) {a : List (List F)} (b : List (List F)) (ha : Rect n k a) : Rect n m (mulL m a b) :=
  rect_mul ha

theorem mspow_start {r c : Nat} {a : List (List F)} (ha : Rect r c a) :
    ((List.range a.length).mapM fun i => idx a 0 >>= fun a0 =>
      (.ok ((List.range a0.length).map fun j => if i = j then (ofInt 1 : F) else ofInt 0) : Out String (List F))) =
    .ok (eyeL r c) := by
  unfold eyeL
  rw [← ha.1]
  apply mapM_ok_of_forall
  intro i hi
  have hi : i < a.length := List.mem_range.1 hi
  rw [idx_lt (show 0 < a.length by omega), ok_bind, ha.2 _ (List.getElem_mem _)]

/-- Powers of a square matrix. -/
def powL (n : Nat) (a : List (List F)) : Nat → List (List F)
  | 0 => eyeL n n
  | k + 1 => mulL n (powL n a k) a

theorem rect_powL {n : Nat} (a : List (List F)) (k : Nat) : Rect n n (powL n a k) := by
  induction k with
  | zero => exact rect_eye n n
  | succ k ih => exact rect_mulL n a ih

theorem foldlM_range_iter {ε α : Type} (f : α → Out ε α) (g : Nat → α) (h : ∀ k, f (g k) = .ok (g (k + 1))) (k : Nat) :
    (List.range k).foldlM (fun m _ => f m) (g 0) = .ok (g k) := by
  induction k with
  | zero => rfl
  | succ k ih =>
    rw [List.range_succ, List.foldlM_append, ih]
    simp only [ok_bind, List.foldlM_cons, List.foldlM_nil, h]
    rfl

theorem mspow_eq {n : Nat} (hn : 0 < n) {a : List (List F)} (ha : Rect n n a) (b : F) (hb : beq (round b) b = true) :
    mspow a b = .ok (.matrix (powL n a (toI32 b).toNat)) := by
  unfold mspow
  rw [if_neg (by simp [hb]), mspow_start ha, ok_bind]
  have := foldlM_range_iter (ε := String) (fun (m : List (List F)) => mmmult m a >>= fun p => Out.unwrap p.getMatrix)
    (powL n a) (fun k => by
      rw [mmmult_eq hn hn (rect_powL a k) ha]
      rfl) (toI32 b).toNat
  rw [show powL n a 0 = eyeL n n from rfl] at this
  rw [this]
  rfl

theorem mspow_not_int (a : List (List F)) (b : F) (hb : beq (round b) b = false) :
    mspow a b = .err "Exponent must be an integer!" := by
  unfold mspow
  rw [if_pos (by simp [hb])]

theorem mspow_not_square {r c : Nat} (hr : 0 < r) (hrc : r ≠ c) {a : List (List F)} (ha : Rect r c a) (b : F)
    (hb : beq (round b) b = true) :
    mspow a b = if (toI32 b).toNat = 0 then .ok (.matrix (eyeL r c)) else .err "Matrices have incompatible dimensions!" := by
  unfold mspow
  rw [if_neg (by simp [hb]), mspow_start ha, ok_bind]
  cases h : (toI32 b).toNat with
  | zero => rfl
  | succ k =>
    rw [if_neg (by simp), List.range_succ_eq_map, List.foldlM_cons, mmmult_err hr (rect_eye r c) ha (Ne.symm hrc)]
    rfl

/-! ## determinant -/

/-- First row and column `i` removed. -/
def minorL (a : List (List F)) (i : Nat) : List (List F) := (a.drop 1).map fun r => r.eraseIdx i

/-- Laplace expansion along the first row, as the code computes it. -/
def detL : Nat → List (List F) → F
  | 0, _ => ofInt 0
  | 1, a => match a with
    | [[x]] => x
    | _ => ofInt 0
  | 2, a => match a with
    | [[p, r], [s, q]] => sub (mul p q) (mul r s)
    | _ => ofInt 0
  | n + 3, a => match a with
    | [] => ofInt 0
    | a0 :: _ => a0.zipIdx.foldl (fun sum xi =>
        add sum (mul (mul (powi (ofInt (-1)) xi.2) xi.1) (detL (n + 2) (minorL a xi.2)))) (ofInt 0)

theorem minor_eq {ε : Type} {n : Nat} {a : List (List F)} (h : ∀ l ∈ a, l.length = n) {i : Nat} (hi : i < n) :
    (minor a i : Out ε (List (List F))) = .ok (minorL a i) := by
  unfold minor minorL
  apply mapM_ok_of_forall
  intro r hr
  have hr' : r.length = n := h r (List.mem_of_mem_drop hr)
  rw [slice_ok (by omega) (by omega), ok_bind, slice_ok (by omega) (by omega), ok_bind,
    List.eraseIdx_eq_take_drop_succ]
  simp

theorem rect_minor {n : Nat} {a : List (List F)} (h : Rect (n + 1) (n + 1) a) {i : Nat} (hi : i < n + 1) :
    Rect n n (minorL a i) := by
  refine ⟨by simp [minorL, h.1], ?_⟩
  intro l hl
  obtain ⟨r, hr, rfl⟩ := List.mem_map.1 hl
  rw [List.length_eraseIdx_of_lt (by rw [h.2 r (List.mem_of_mem_drop hr)]; exact hi),
    h.2 r (List.mem_of_mem_drop hr)]
  rfl

theorem foldlM_zipIdx {ε α β : Type} (l : List α) (f : β → α → Nat → Out ε β) (g : β → α → Nat → β) (k : Nat) (b : β)
    (L : List α) (hL : L.drop k = l) (h : ∀ b i (hi : i < L.length), f b L[i] i = .ok (g b L[i] i)) :
    ((List.range' k l.length).foldlM (fun b i => idx L i >>= fun x => f b x i) b) =
      .ok ((l.zipIdx k).foldl (fun b xi => g b xi.1 xi.2) b) := by
  induction l generalizing k b with
  | nil => rfl
  | cons x l ih =>
    have hk : k < L.length := by
      by_contra hc
      rw [List.drop_eq_nil_of_le (by omega)] at hL
      cases hL
    have hx : L[k] = x := by
      have := List.getElem_cons_drop hk
      rw [hL] at this
      exact (List.cons.inj this).1
    have hd : L.drop (k + 1) = l := by
      have := List.getElem_cons_drop hk
      rw [hL] at this
      exact (List.cons.inj this).2
    rw [List.length_cons, List.range'_succ, List.foldlM_cons, idx_lt hk, ok_bind, h _ k hk, ok_bind,
      ih (k + 1) _ hd, List.zipIdx_cons, List.foldl_cons, hx]

theorem rect_filter {r c : Nat} {a : List (List F)} (h : Rect r c a) :
    (a.filter fun l => l.length != c) = [] := by
  apply List.filter_eq_nil_iff.2
  intro l hl
  simp [h.2 l hl]

theorem detFuel_eq {n : Nat} (hn : 0 < n) {a : List (List F)} (ha : Rect n n a) {fuel : Nat} (hf : n ≤ fuel) :
    detFuel fuel a = .ok (.scalar (detL n a)) := by
  induction n using Nat.strongRecOn generalizing a fuel with
  | ind n ih =>
    obtain ⟨fuel, rfl⟩ : ∃ k, fuel = k + 1 := ⟨fuel - 1, by omega⟩
    have hla : 0 < a.length := by rw [ha.1]; exact hn
    have h0 : a[0].length = n := ha.2 _ (List.getElem_mem _)
    have hne : a.isEmpty = false := by
      cases a with
      | nil => simp at hla
      | cons _ _ => rfl
    unfold detFuel
    simp only [hne, idx_lt hla, ok_bind, h0, rect_filter ha, Bool.false_eq_true, if_false]
    simp only [List.length_nil, bne_self_eq_false, Bool.false_eq_true, if_false]
    rw [if_neg (by simp [ha.1])]
    match n, ih, hn, ha with
    | 1, _, _, ha =>
      rw [if_pos ha.1]
      match a, ha with
      | [r], ⟨_, hr⟩ =>
        have : r.length = 1 := hr r (by simp)
        match r, this with
        | [x], _ => rfl
    | 2, _, _, ha =>
      rw [if_neg (by simp [ha.1]), if_pos ha.1]
      match a, ha with
      | [r, s], ⟨_, hr⟩ =>
        have h1 : r.length = 2 := hr r (by simp)
        have h2 : s.length = 2 := hr s (by simp)
        match r, s, h1, h2 with
        | [_, _], [_, _], _, _ => rfl
    | n + 3, ih, _, ha =>
      rw [if_neg (by simp [ha.1]), if_neg (by simp [ha.1])]
      match a, ha with
      | a0 :: rest, ha =>
        have hl0 : a0.length = n + 3 := ha.2 a0 (by simp)
        have key := foldlM_zipIdx (ε := String) a0 (fun sum x i => (minor (a0 :: rest) i) >>= fun m => detFuel fuel m >>= fun d =>
            Out.unwrap d.getScalar >>= fun d => .ok (add sum (mul (mul (powi (ofInt (-1)) (i : Int)) x) d)))
          (fun sum x i => add sum (mul (mul (powi (ofInt (-1)) (i : Int)) x) (detL (n + 2) (minorL (a0 :: rest) i))))
          0 (ofInt 0) a0 rfl (by
            intro b i hi
            rw [minor_eq ha.2 (by omega), ok_bind, ih (n + 2) (by omega) (by omega) (rect_minor ha (by omega)) (by omega)]
            rfl)
        rw [hl0, ← List.range_eq_range'] at key
        have hcomm : ∀ (sum : F) (i : Nat), i ∈ List.range (n + 3) →
            (minor (a0 :: rest) i >>= fun m => idx2 (a0 :: rest) 0 i >>= fun x => detFuel fuel m >>= fun d =>
              Out.unwrap d.getScalar >>= fun d => (.ok (add sum (mul (mul (powi (ofInt (-1)) (i : Int)) x) d)) : Out String F)) =
            (idx a0 i >>= fun x => minor (a0 :: rest) i >>= fun m => detFuel fuel m >>= fun d =>
              Out.unwrap d.getScalar >>= fun d => (.ok (add sum (mul (mul (powi (ofInt (-1)) (i : Int)) x) d)) : Out String F)) := by
          intro sum i hi
          have hi : i < n + 3 := List.mem_range.1 hi
          rw [minor_eq ha.2 hi]
          simp only [ok_bind, idx2, idx_cons_zero]
        have hfold : ∀ (l : List Nat) (b : F), (∀ i ∈ l, i ∈ List.range (n + 3)) →
            l.foldlM (fun sum i => minor (a0 :: rest) i >>= fun m => idx2 (a0 :: rest) 0 i >>= fun x => detFuel fuel m >>= fun d =>
              Out.unwrap d.getScalar >>= fun d => (.ok (add sum (mul (mul (powi (ofInt (-1)) (i : Int)) x) d)) : Out String F)) b =
            l.foldlM (fun sum i => idx a0 i >>= fun x => minor (a0 :: rest) i >>= fun m => detFuel fuel m >>= fun d =>
              Out.unwrap d.getScalar >>= fun d => (.ok (add sum (mul (mul (powi (ofInt (-1)) (i : Int)) x) d)) : Out String F)) b := by
          intro l
          induction l with
          | nil => intro b _; rfl
          | cons i l ihl =>
            intro b hl
            rw [List.foldlM_cons, List.foldlM_cons, hcomm b i (hl i (by simp))]
            exact Out.bind_congr fun b' _ => ihl b' fun i hi => hl i (by simp [hi])
        rw [hfold _ _ fun i hi => hi, key]
        rfl

theorem detM_eq {n : Nat} (hn : 0 < n) {a : List (List F)} (ha : Rect n n a) : detM a = .ok (.scalar (detL n a)) := by
  unfold detM
  exact detFuel_eq hn ha (by rw [ha.1]; omega)

theorem detM_err {r c : Nat} (hr : 0 < r) (hrc : r ≠ c) {a : List (List F)} (ha : Rect r c a) :
    detM a = .err "Can't calculate determinant of a non-square matrix!" := by
  unfold detM detFuel
  have hla : 0 < a.length := by rw [ha.1]; exact hr
  have h0 : a[0].length = c := ha.2 _ (List.getElem_mem _)
  have hne : a.isEmpty = false := by
    cases a with
    | nil => simp at hla
    | cons _ _ => rfl
  simp only [hne, idx_lt hla, ok_bind, h0, rect_filter ha, Bool.false_eq_true, if_false]
  simp only [List.length_nil, bne_self_eq_false, Bool.false_eq_true, if_false]
  rw [if_pos (by rw [ha.1]; exact hrc)]

/-! ## elimination -/

/-- Row `j` after eliminating with row `i`. -/
def elimRow (i : Nat) (vi vj : List F) (d : F) : List F :=
  List.zipWith (fun (xk : F × Nat) y => if xk.2 < i then xk.1 else sub xk.1 (div y d)) vj.zipIdx vi

theorem elimStep_row {ε : Type} (vi vj : List F) (i : Nat) (d : F) (hl : vi.length = vj.length) (k : Nat)
    (pre : List F) (hpre : pre.length = k) :
    ((vj.zipIdx k).mapM fun (xk : F × Nat) =>
      if xk.2 < i then (.ok xk.1 : Out ε F) else idx (pre ++ vi) xk.2 >>= fun y => .ok (sub xk.1 (div y d))) =
    .ok (List.zipWith (fun (xk : F × Nat) y => if xk.2 < i then xk.1 else sub xk.1 (div y d)) (vj.zipIdx k) vi) := by
  induction vj generalizing vi k pre with
  | nil => rfl
  | cons x vj ih =>
    cases vi with
    | nil => simp at hl
    | cons y vi =>
      simp only [List.zipIdx_cons, List.mapM_cons, List.zipWith_cons_cons]
      have h1 : (idx (pre ++ y :: vi) k : Out ε F) = .ok y := by
        rw [idx_eq_ok, List.getElem?_append_right (by omega)]
        simp [hpre]
      have h2 := ih vi (by simpa using hl) (k + 1) (pre ++ [y]) (by simp [hpre])
      simp only [List.append_assoc, List.singleton_append] at h2
      rw [h2, h1]
      simp only [ok_bind]
      split <;> rfl

/-- Value of one elimination step on rows of equal length. -/
theorem elimStep_eq {ε : Type} (zl : ε) {n w : Nat} {v : List (List F)} (hv : Rect n w v) {i j : Nat} (hi : i < n) (hj : j < n)
    (hw : i < w) :
    ∃ (hi' : i < v.length) (hj' : j < v.length) (hwi : i < v[i].length) (hwj : i < v[j].length),
    elimStep zl v (i, j) =
      if ((elimRow i v[i] v[j] (div v[i][i] v[j][i])).drop i).all fun x => beq x (ofInt 0) then .err zl
      else .ok (v.set j (elimRow i v[i] v[j] (div v[i][i] v[j][i]))) := by
  have hi' : i < v.length := by rw [hv.1]; exact hi
  have hj' : j < v.length := by rw [hv.1]; exact hj
  have hli : v[i].length = w := hv.2 _ (List.getElem_mem _)
  have hlj : v[j].length = w := hv.2 _ (List.getElem_mem _)
  refine ⟨hi', hj', by omega, by omega, ?_⟩
  unfold elimStep idx2
  simp only [idx_lt hi', idx_lt hj', ok_bind]
  rw [idx_lt (show i < v[i].length by omega), ok_bind, idx_lt (show i < v[j].length by omega), ok_bind]
  have := elimStep_row (ε := ε) v[i] v[j] i (div v[i][i] v[j][i]) (by omega) 0 [] rfl
  simp only [List.nil_append] at this
  rw [this]
  rfl

theorem elimRow_length {i : Nat} {vi vj : List F} {d : F} (h : vi.length = vj.length) : (elimRow i vi vj d).length = vj.length := by
  simp [elimRow, h]

theorem elimStep_post {ε : Type} (zl : ε) {n w : Nat} {v : List (List F)} (hv : Rect n w v) {i j : Nat} (hi : i < n) (hj : j < n)
    (hw : i < w) : Safe (Rect n w) (elimStep zl v (i, j)) := by
  obtain ⟨hi', hj', hwi, hwj, h⟩ := elimStep_eq zl hv hi hj hw
  rw [h]
  split
  · trivial
  · show Rect n w _
    refine ⟨by rw [List.length_set, hv.1], ?_⟩
    intro l hl
    have hli : v[i].length = w := hv.2 _ (List.getElem_mem _)
    have hlj : v[j].length = w := hv.2 _ (List.getElem_mem _)
    rcases List.mem_or_eq_of_mem_set hl with h | rfl
    · exact hv.2 l h
    · rw [elimRow_length (by omega), hlj]

theorem mem_elimPairs {n : Nat} {p : Nat × Nat} : p ∈ elimPairs n ↔ p.1 < p.2 ∧ p.2 < n := by
  rcases p with ⟨i, j⟩
  simp only [elimPairs, List.mem_flatMap, List.mem_range, List.mem_map, List.mem_range'_1, Prod.mk.injEq]
  constructor
  · rintro ⟨a, ha, b, hb, rfl, rfl⟩
    omega
  · rintro ⟨h1, h2⟩
    exact ⟨i, by omega, j, by omega, rfl, rfl⟩

theorem eliminate_post {ε : Type} (zl : ε) {n w : Nat} {v : List (List F)} (hv : Rect n w v) (hw : n ≤ w + 1) :
    Safe (Rect n w) (eliminate zl v) := by
  unfold eliminate
  refine Post.foldlM _ (fun b hb p hp => ?_) v hv
  rw [mem_elimPairs, hv.1] at hp
  rcases p with ⟨i, j⟩
  exact elimStep_post zl hb (by omega) hp.2 (by omega)

theorem rotate_length {α : Type} (n : Nat) (l : List α) : (rotate n l).length = l.length := by
  induction n generalizing l with
  | zero => rfl
  | succ n ih =>
    cases l with
    | nil => rfl
    | cons x l => rw [rotate, ih]; simp

theorem rect_reverse {α : Type} {r c : Nat} {a : List (List α)} (h : Rect r c a) : Rect r c (a.reverse.map List.reverse) := by
  refine ⟨by simp [h.1], ?_⟩
  intro l hl
  obtain ⟨m, hm, rfl⟩ := List.mem_map.1 hl
  rw [List.length_reverse, h.2 m (List.mem_reverse.1 hm)]

theorem rect_rotate {α : Type} {r c : Nat} {a : List (List α)} (h : Rect r c a) (n : Nat) : Rect r c (a.map (rotate n)) := by
  refine ⟨by simp [h.1], ?_⟩
  intro l hl
  obtain ⟨m, hm, rfl⟩ := List.mem_map.1 hl
  rw [rotate_length, h.2 m hm]

/-- The extended matrix of `inv`: the rows of `a` followed by the rows of the identity. -/
def augL (n : Nat) (a : List (List F)) : List (List F) :=
  a.zipIdx.map fun (r, i) => r ++ (List.range n).map fun j => if j = i then (ofInt 1 : F) else ofInt 0

theorem rect_aug {n c : Nat} {a : List (List F)} (h : Rect n c a) (k : Nat) : Rect n (c + k) (augL k a) := by
  refine ⟨by simp [augL, h.1], ?_⟩
  intro l hl
  obtain ⟨⟨r, i⟩, hr, rfl⟩ := List.mem_map.1 hl
  have hm : r ∈ a := (List.mem_zipIdx' hr).2 ▸ List.getElem_mem _
  simp [h.2 r hm]

theorem invM_post {n : Nat} (hn : 0 < n) {a : List (List F)} (ha : Rect n n a) :
    Safe (fun v => ∃ m, v = .matrix m ∧ Rect n n m) (invM a) := by
  unfold invM
  rw [detM_eq hn ha]
  simp only
  split
  · trivial
  · have h1 : Rect n (n + n) (augL a.length a) := by rw [ha.1]; exact rect_aug ha n
    refine Post.bind (eliminate_post _ (v := augL a.length a) h1 (by omega)) fun v hv => ?_
    refine Post.bind (eliminate_post _ (rect_rotate (rect_reverse hv) _) (by omega)) fun v hv => ?_
    have hrows : Safe (fun (rows : List (List F)) => rows.length = (List.range v.length).length ∧ ∀ r ∈ rows, r.length = n)
        ((List.range v.length).mapM fun i => do
          let vi ← idx v i
          let p ← idx vi i
          let mult := div (ofInt 1) p
          let row ← (List.range' (vi.length - a.length) a.length).mapM fun j => do
            let x ← idx vi j
            (.ok (mul x mult) : Out String F)
          .ok row.reverse) := by
      refine Post.mapM _ fun i hi => ?_
      have hi : i < v.length := List.mem_range.1 hi
      have hl : v[i].length = n + n := hv.2 _ (List.getElem_mem _)
      have hiv : i < n := by rw [← hv.1]; exact hi
      rw [idx_lt hi, ok_bind, idx_lt (show i < v[i].length by omega), ok_bind]
      simp only
      refine Post.bind (Post.mapM (P := fun _ => True) _ fun j hj => ?_) fun row hrow => ?_
      · have hj := List.mem_range'_1.1 hj
        rw [ha.1, hl] at hj
        rw [idx_lt (show j < v[i].length by omega), ok_bind]
        trivial
      · rw [post_ok, List.length_reverse, hrow.1, List.length_range', ha.1]
    refine Post.bind hrows fun rows hr => ?_
    rw [post_ok]
    refine ⟨_, rfl, by rw [List.length_reverse, hr.1, List.length_range, hv.1], ?_⟩
    intro l hl
    exact hr.2 l (List.mem_reverse.1 hl)

end
end MUL
