import Verif.Proofs.Rounding
import Verif.Spec.Whole
/-!
# Whole numbers of at most 2^53 are computed without rounding
-/

namespace MUL
open Out Spec FArith

/-- The exact number `n`. -/
def exactR (n : Int) : Approx := ⟨n, 0⟩

/-- Whole numbers without error. -/
def Spec.Ints.toR : Ints → ObjR
  | .scalar n => .scalar (exactR n)
  | .vector l => .vector (l.map exactR)

theorem representableR_int {n : Int} (h : Fits n) : RepresentableR (n : ℝ) := ⟨n, representable_int h, by push_cast; rfl⟩

theorem sumR_int {n m : Int} (h : Fits (n + m)) : SumR (exactR n) (exactR m) (exactR (n + m)) := by
  have := SumR.exact (n : ℝ) (m : ℝ) (by exact_mod_cast representableR_int h)
  unfold exactR
  push_cast
  exact this

theorem prodR_int {n m : Int} (h : Fits (n * m)) : ProdR (exactR n) (exactR m) (exactR (n * m)) := by
  have := ProdR.exact (n : ℝ) (m : ℝ) (by exact_mod_cast representableR_int h)
  unfold exactR
  push_cast
  exact this

theorem neg_exactR (n : Int) : (exactR n).neg = exactR (-n) := by simp [exactR, Approx.neg]

theorem dotR_int : ∀ (n m : List Int) (s : Int), n.length = m.length → (∀ k ∈ List.zipWith (· * ·) n m, Fits k) →
    (∀ j, Fits (s + ((List.zipWith (· * ·) n m).take j).sum)) →
    DotR (n.map exactR) (m.map exactR) (exactR s) (exactR (s + (List.zipWith (· * ·) n m).sum))
  | [], [], s, _, _, _ => by simpa using DotR.nil (exactR s)
  | a :: n, b :: m, s, hlen, hp, hs => by
    simp only [List.zipWith_cons_cons, List.map_cons, List.sum_cons, List.mem_cons, forall_eq_or_imp] at hp ⊢
    refine .cons (prodR_int hp.1) (sumR_int (by simpa using hs 1)) ?_
    have := dotR_int n m (s + a * b) (by simpa using hlen) hp.2 fun j => by
      simpa [add_assoc] using hs (j + 1)
    rwa [add_assoc] at this
  | [], _ :: _, _, h, _, _ => by simp at h
  | _ :: _, [], _, h, _, _ => by simp at h

theorem each_int : ∀ (n m : List Int), n.length = m.length → (∀ k ∈ List.zipWith (· + ·) n m, Fits k) →
    Each SumR (n.map exactR) (m.map exactR) ((List.zipWith (· + ·) n m).map exactR)
  | [], [], _, _ => ⟨.nil, rfl⟩
  | a :: n, b :: m, hlen, hs => by
    simp only [List.zipWith_cons_cons, List.mem_cons, forall_eq_or_imp] at hs
    obtain ⟨h1, h2⟩ := each_int n m (by simpa using hlen) hs.2
    exact ⟨.cons (sumR_int hs.1) h1, by simpa using hlen⟩
  | [], _ :: _, h, _ => by simp at h
  | _ :: _, [], h, _ => by simp at h

theorem whole_rounds {cfg : Cfg} {u : ℝ} {φ : Defs} {cur : Str} {ρ : Str → Option Ints} {e : Ex} {n : Ints} (h : WholeEx ρ e n) :
    Rounds cfg u φ cur (fun x => (ρ x).map Ints.toR) e n.toR := by
  induction h with
  | num ip hs =>
    have e : Spec.numeral ip none = ((digitsNumber ip : Int) : ℝ) := by simp [Spec.numeral]
    have := Rounds.numExact (cfg := cfg) (u := u) (φ := φ) (cur := cur) (ρ := fun x => (ρ x).map Ints.toR) ip none
      (e ▸ representableR_int hs)
    rwa [e] at this
  | var x n hx => exact .var x _ (by simp [hx])
  | paren e n _ ih => exact .paren _ _ ih
  | neg e n _ ih =>
    have := Rounds.neg _ _ ih
    simpa [Ints.toR, ObjR.neg, neg_exactR] using this
  | abs name e n _ ih =>
    have := Rounds.fn name .abs _ _ _ ih (.abs _ _)
    simpa [Ints.toR, exactR] using this
  | add l r n m _ _ hs ih1 ih2 => exact .bin _ _ _ _ _ _ ih1 ih2 (.add (.scalar (sumR_int hs)))
  | sub l r n m _ _ hs ih1 ih2 =>
    refine .bin _ _ _ _ _ _ ih1 ih2 (.sub ?_)
    simp only [Ints.toR, ObjR.neg, neg_exactR]
    rw [sub_eq_add_neg] at hs ⊢
    exact .scalar (sumR_int hs)
  | mult l r n m _ _ hs ih1 ih2 => exact .bin _ _ _ _ _ _ ih1 ih2 (.mult (.scalar (prodR_int hs)))
  | juxt l r n m _ _ hs ih1 ih2 => exact .bin _ _ _ _ _ _ ih1 ih2 (.juxt (.scalar (prodR_int hs)))
  | div l r n m _ _ hm hs ih1 ih2 =>
    refine .bin _ _ _ _ _ _ ih1 ih2 (.div (.scalar ?_))
    have hm' : (m : ℝ) ≠ 0 := by exact_mod_cast hm
    have e : ((n * m : Int) : ℝ) / (m : ℝ) = (n : ℝ) := by push_cast; field_simp
    have := QuotR.exact ((n * m : Int) : ℝ) (m : ℝ) hm' (by rw [e]; exact representableR_int hs)
    rwa [e] at this
  | vec es ns hlen _ ih =>
    refine .vec es _ (by simpa using hlen) ?_
    intro i hi
    have := ih i hi
    simpa [Ints.toR] using this
  | addVec l r n m _ _ hlen hs ih1 ih2 => exact .bin _ _ _ _ _ _ ih1 ih2 (.add (.vector (each_int n m hlen hs)))
  | dot l r n m _ _ hlen hp hs ih1 ih2 =>
    refine .bin _ _ _ _ _ _ ih1 ih2 (.mult (.dot ?_))
    have := dotR_int n m 0 hlen hp (by simpa using hs)
    simpa [exactR, Ints.toR] using this

end MUL
