import Verif.Spec.Counts
import Verif.Proofs.EvalSafe
import Verif.Props.Roots
/-!
# C82: how many values an expression has
-/

namespace MUL
open Out Spec

set_option linter.unusedSectionVars false

section
variable {F : Type} [FNum F]

/-- At least `a`, at most `b` elements. -/
def Within {α : Type} (a b : Nat) (l : List α) : Prop := a ≤ l.length ∧ l.length ≤ b

theorem within_exact {α : Type} (l : List α) : Within l.length l.length l := ⟨le_rfl, le_rfl⟩

theorem within_flatten {α : Type} {l : List (List α)} {a b : Nat} (h : ∀ x ∈ l, Within a b x) :
    Within (l.length * a) (l.length * b) l.flatten := by
  induction l with
  | nil => simp [Within]
  | cons x l ih =>
    obtain ⟨h1, h2⟩ := h x (by simp)
    obtain ⟨h3, h4⟩ := ih fun y hy => h y (by simp [hy])
    simp only [Within, List.flatten_cons, List.length_append, List.length_cons, Nat.add_mul, Nat.one_mul]
    omega

theorem within_mul {α : Type} {l : List α} {n a b a' b' : Nat} (h : Within (n * a) (n * b) l) (h1 : a' ≤ n) (h2 : n ≤ b') :
    Within (a' * a) (b' * b) l :=
  ⟨le_trans (Nat.mul_le_mul_right _ h1) h.1, le_trans h.2 (Nat.mul_le_mul_right _ h2)⟩

theorem choices_count {α : Type} (l : List (List α)) : (choices l).length = (l.map List.length).prod := by
  induction l with
  | nil => rfl
  | cons a l ih =>
    rw [choices, List.length_flatMap]
    simp [ih, List.map_const']

theorem prod_within {α β : Type} (l : List (β × Nat × Nat)) (r : List (List α))
    (h : List.Forall₂ (fun p x => Within p.2.1 p.2.2 x) l r) :
    (l.map fun p => p.2.1).prod ≤ (r.map List.length).prod ∧ (r.map List.length).prod ≤ (l.map fun p => p.2.2).prod := by
  induction h with
  | nil => simp
  | cons h _ ih =>
    simp only [List.map_cons, List.prod_cons]
    exact ⟨Nat.mul_le_mul h.1 ih.1, Nat.mul_le_mul h.2 ih.2⟩

theorem sum_within {α β : Type} (l : List (β × Nat × Nat)) (r : List (List α))
    (h : List.Forall₂ (fun p x => Within p.2.1 p.2.2 x) l r) :
    Within (l.map fun p => p.2.1).sum (l.map fun p => p.2.2).sum r.flatten := by
  induction h with
  | nil => simp [Within]
  | cons h _ ih =>
    simp only [Within, List.map_cons, List.sum_cons, List.flatten_cons, List.length_append] at *
    omega

/-- `mapM` over expressions that carry their counts. -/
theorem mapM_within {α β ε : Type} (l : List (β × Nat × Nat)) (f : β → Out ε (List α))
    (h : ∀ p ∈ l, Post False (Within p.2.1 p.2.2) (f p.1)) :
    Post False (fun r => List.Forall₂ (fun p x => Within p.2.1 p.2.2 x) l r) ((l.map fun p => p.1).mapM f) := by
  induction l with
  | nil => exact .nil
  | cons p l ih =>
    rw [List.map_cons, List.mapM_cons]
    refine Post.bind (h p (by simp)) fun x hx => ?_
    refine Post.bind (ih fun q hq => h q (by simp [hq])) fun r hr => ?_
    exact .cons hx hr

/-- What the counts say about a context. -/
structure Sized (look : Str → Option (Function F)) (ρ : Str → Nat) (c : Context F) : Prop where
  funs : ∀ g, c.findFun g = look g
  vars : ∀ v ∈ c.vars, v.values.length = ρ v.name
  once : ∀ x, ρ x = 1 ∨ (c.vars.filter fun v => v.name == x).length ≤ 1

theorem applyOp_count (op : SimpleOp) (h : op ≠ .addSub) (i j : Value F) : Post False (Within 1 1) (applyOp op i j) := by
  have one : ∀ x : Out String (Value F), Post False (Within 1 1) (do let v ← liftMath x; (.ok [v] : Out EvalError _)) := by
    intro x
    cases x <;> simp [liftMath, Out.mapErr, Within, ok_bind]
  cases op <;> first | exact absurd rfl h | exact one _ | exact ⟨le_rfl, le_rfl⟩

theorem applyOp_count2 (i j : Value F) : Post False (Within 2 2) (applyOp .addSub i j) := by
  simp only [applyOp]
  refine Post.bind (P := fun _ => True) ?_ fun a _ => Post.bind (P := fun _ => True) ?_ fun b _ => ⟨le_rfl, le_rfl⟩
  · cases liftMath (vAdd i j) <;> simp
  · cases liftMath (vSub i j) <;> simp

theorem applyAll_count (op : SimpleOp) (k : Nat) (h : ∀ i j : Value F, Post False (Within k k) (applyOp op i j))
    {l r : List (Value F)} {a b a' b' : Nat} (hl : Within a b l) (hr : Within a' b' r) :
    Post False (Within (a * a' * k) (b * b' * k)) (applyAll op l r) := by
  unfold applyAll
  refine Post.bind (Post.mapM (P := Within (r.length * k) (r.length * k)) _ fun i _ => ?_) fun res hres => ?_
  · refine Post.bind (Post.mapM (P := Within k k) _ fun j _ => h i j) fun q hq => ?_
    have := within_flatten hq.2
    rw [hq.1] at this
    exact this
  · have := within_flatten hres.2
    rw [hres.1] at this
    refine ⟨le_trans ?_ this.1, le_trans this.2 ?_⟩
    · rw [Nat.mul_assoc]
      exact Nat.mul_le_mul hl.1 (Nat.mul_le_mul_right _ hr.1)
    · rw [Nat.mul_assoc]
      exact Nat.mul_le_mul hl.2 (Nat.mul_le_mul_right _ hr.2)

theorem accumulate_count (s e : List (Value F)) : Post False (fun r => r.length = max s.length e.length) (accumulate s e) := by
  induction e generalizing s with
  | nil => cases s <;> simp [accumulate]
  | cons y e ih =>
    cases s with
    | nil =>
      unfold accumulate
      refine Post.bind (ih []) fun r hr => ?_
      simp only [post_ok, List.length_cons, List.length_nil] at hr ⊢
      omega
    | cons x s =>
      unfold accumulate
      refine Post.bind (P := fun _ => True) ?_ fun v _ => Post.bind (ih s) fun r hr => ?_
      · cases liftMath (vAdd x y) <;> simp
      · simp only [post_ok, List.length_cons] at hr ⊢
        omega

theorem integralLoop_count {ev : Evaluator F} {expr : AST F} {x : Str} {vars : List (Variable F)} {funs : List (Function F)} {a b : Nat}
    (hev : ∀ s : F, Post False (Within a b) (ev expr ⟨vars ++ [⟨x, [.scalar s]⟩], funs⟩)) (ub dx : F) (n : Nat) (p : F)
    (sums : List (Value F)) (hs : (sums = [] ∧ FArith.lt p ub = true) ∨ Within a b sums) :
    Post False (Within a b) (integralLoop ev expr x vars funs ub dx n p sums) := by
  induction n generalizing p sums with
  | zero =>
    unfold integralLoop
    split
    · trivial
    · rename_i h
      exact hs.resolve_left fun h' => h h'.2
  | succ n ih =>
    unfold integralLoop
    split
    · refine Post.bind (hev _) fun es he => Post.bind (accumulate_count sums es) fun s hs' => ih _ s (Or.inr ?_)
      rcases hs with ⟨rfl, _⟩ | hs
      · simp only [List.length_nil] at hs'
        unfold Within at *
        omega
      · unfold Within at *
        omega
    · rename_i h
      exact hs.resolve_left fun h' => h h'.2

theorem integralLoop_le_count {ev : Evaluator F} {expr : AST F} {x : Str} {vars : List (Variable F)} {funs : List (Function F)} {a b : Nat}
    (hev : ∀ s : F, Post False (Within a b) (ev expr ⟨vars ++ [⟨x, [.scalar s]⟩], funs⟩)) (ub dx : F) (n : Nat) (p : F)
    (sums : List (Value F)) (hs : sums.length ≤ b) :
    Post False (fun r => r.length ≤ b) (integralLoop ev expr x vars funs ub dx n p sums) := by
  induction n generalizing p sums with
  | zero =>
    unfold integralLoop
    split
    · trivial
    · exact hs
  | succ n ih =>
    unfold integralLoop
    split
    · refine Post.bind (hev _) fun es he => Post.bind (accumulate_count sums es) fun s hs' => ih _ s ?_
      unfold Within at *
      omega
    · exact hs

theorem scaled_count (l : List (Value F)) (d : F) :
    Post False (fun r => r.length = l.length) (l.mapM fun s => (liftMath (vMult s (.scalar d)) : Out EvalError _)) := by
  refine Post.mono (Post.mapM (P := fun _ => True) _ fun v _ => ?_) fun r hr => hr.1
  cases liftMath (vMult v (.scalar d)) <;> simp

theorem calculateIntegral_count (cfg : Cfg) {ev : Evaluator F} (fuel : Nat) {expr : AST F} {x : Str} {c : Context F} {a b : Nat}
    (hev : ∀ s : F, Post False (Within a b) (ev expr ⟨eraseFirstVar c.vars x ++ [⟨x, [.scalar s]⟩], c.funs⟩)) (lo hi : F)
    (h0 : FArith.beq lo hi = false) (h : FArith.lt lo hi = true ∨ FArith.lt hi lo = true) :
    Post False (Within a b) (calculateIntegral cfg ev fuel expr x (.scalar lo) (.scalar hi) c) := by
  unfold calculateIntegral
  simp only [h0, Bool.false_eq_true, if_false]
  refine Post.bind (integralLoop_count hev _ _ _ _ [] (Or.inl ⟨rfl, ?_⟩)) fun s hs => Post.mono (scaled_count s _) fun r hr => ?_
  · by_cases h' : FArith.lt hi lo = true
    · rw [if_pos h', if_pos h']; exact h'
    · rw [if_neg h', if_neg h']
      exact h.resolve_right h'
  · unfold Within at *
    omega

theorem calculateIntegral_le_count (cfg : Cfg) {ev : Evaluator F} (fuel : Nat) {expr : AST F} {x : Str} {c : Context F} {a b : Nat}
    (hev : ∀ s : F, Post False (Within a b) (ev expr ⟨eraseFirstVar c.vars x ++ [⟨x, [.scalar s]⟩], c.funs⟩)) (lo hi : Value F) :
    Post False (Within 0 (max 1 b)) (calculateIntegral cfg ev fuel expr x lo hi c) := by
  unfold calculateIntegral
  split
  · split
    · rw [post_ok]
      exact ⟨by omega, by simp⟩
    · refine Post.bind (integralLoop_le_count hev _ _ _ _ [] (by simp)) fun s hs => Post.mono (scaled_count s _) fun r hr => ?_
      unfold Within
      omega
  · trivial

theorem fromValue_count (look : Str → Option (Function F)) (ρ : Str → Nat) (v : Value F) : ValueCount look ρ (AST.fromValue v) 1 1 := by
  have hv : ∀ l : List F, ∀ p ∈ l.map (fun s => (AST.scalar s, 1, 1)), ValueCount look ρ p.1 p.2.1 p.2.2 := by
    intro l p hp
    obtain ⟨s, _, rfl⟩ := List.mem_map.1 hp
    exact .scalar s
  cases v with
  | scalar s => exact .scalar s
  | vector l =>
    have := ValueCount.vector (look := look) (ρ := ρ) (l.map fun s => (AST.scalar s, 1, 1)) (hv l)
    simpa [AST.fromValue, Function.comp_def] using this
  | matrix m =>
    have := ValueCount.matrix (look := look) (ρ := ρ) (m.map fun l => l.map fun s => (AST.scalar s, 1, 1)) (by
      intro l hl
      obtain ⟨r, _, rfl⟩ := List.mem_map.1 hl
      exact hv r)
    simpa [AST.fromValue, Function.comp_def] using this

theorem allScalars_count (e : EvalError) (vs : List (Value F)) : Post False (fun r => r.length = vs.length) (allScalars e vs) := by
  unfold allScalars
  refine Post.mono (Post.mapM (P := fun _ => True) _ fun v _ => ?_) fun r hr => hr.1
  cases v <;> trivial

theorem findVar_count {look : Str → Option (Function F)} {ρ : Str → Nat} {c : Context F} (h : Sized look ρ c) {n : Str} {vs : List (Value F)}
    (hv : c.findVar n = some vs) : vs.length = ρ n := by
  simp only [Context.findVar, Option.map_eq_some_iff] at hv
  obtain ⟨v, hv, rfl⟩ := hv
  have h1 := List.find?_some hv
  rw [h.vars v (List.mem_of_find?_eq_some hv), show v.name = n by simpa using h1]

theorem sized_call {look : Str → Option (Function F)} {ρ : Str → Nat} {c : Context F} (h : Sized look ρ c) (inputs : List Str)
    (p : List (Value F)) (hlen : inputs.length = p.length) :
    Sized look (fun n => if n ∈ inputs then 1 else ρ n) ⟨callVars inputs p c.vars, c.funs⟩ := by
  have hfold : ∀ (vs acc : List (Variable F)), (∀ n ∈ inputs, n ∈ acc.map (·.name)) → (∀ v ∈ vs, v.values.length = ρ v.name) →
      (∀ v ∈ acc, v.values.length = if v.name ∈ inputs then 1 else ρ v.name) →
      (∀ x, x ∈ inputs ∨ (acc.filter fun v => v.name == x).length ≤ 1) →
      (∀ v ∈ vs.foldl (fun acc i => if (acc.map (·.name)).contains i.name then acc else acc ++ [i]) acc,
        v.values.length = if v.name ∈ inputs then 1 else ρ v.name) ∧
      (∀ x, x ∈ inputs ∨ ((vs.foldl (fun acc i => if (acc.map (·.name)).contains i.name then acc else acc ++ [i]) acc).filter
        fun v => v.name == x).length ≤ 1) := by
    intro vs
    induction vs with
    | nil => intro acc _ _ h1 h2; exact ⟨h1, h2⟩
    | cons u us ih =>
      intro acc h1 h2 h3 h4
      simp only [List.foldl_cons]
      refine ih _ ?_ (fun v hv => h2 v (by simp [hv])) ?_ ?_
      · split
        · exact h1
        · intro n hn
          rw [List.map_append]
          exact List.mem_append_left _ (h1 n hn)
      · split
        · exact h3
        · rename_i hnc
          intro v hv
          rcases List.mem_append.1 hv with hv | hv
          · exact h3 v hv
          · rw [List.mem_singleton] at hv
            subst hv
            rw [if_neg (fun hn => hnc (List.contains_iff_mem.2 (h1 _ hn)))]
            exact h2 _ (by simp)
      · split
        · exact h4
        · rename_i hnc
          intro x
          refine (h4 x).imp id fun h => ?_
          rw [List.filter_append, List.length_append]
          by_cases hx : u.name = x
          · have : acc.filter (fun v => v.name == x) = [] := by
              rw [List.filter_eq_nil_iff]
              intro v hv hvx
              refine hnc (List.contains_iff_mem.2 ?_)
              rw [hx, ← (by simpa using hvx : v.name = x)]
              exact List.mem_map_of_mem hv
            rw [this]
            simp [hx]
          · simpa [hx] using h
  obtain ⟨h1, h2⟩ := hfold c.vars ((inputs.zip p).map fun np => ⟨np.1, [np.2]⟩) (by
      intro n hn
      rw [List.map_map]
      have : (inputs.zip p).map Prod.fst = inputs := List.map_fst_zip (by omega)
      rw [← this] at hn
      exact hn) h.vars (by
      intro v hv
      obtain ⟨np, hnp, rfl⟩ := List.mem_map.1 hv
      rw [if_pos (List.of_mem_zip hnp).1]
      rfl) (by
      intro x
      by_cases hx : x ∈ inputs
      · exact Or.inl hx
      · right
        have : ((inputs.zip p).map fun np => (⟨np.1, [np.2]⟩ : Variable F)).filter (fun v => v.name == x) = [] := by
          rw [List.filter_eq_nil_iff]
          intro v hv hvx
          obtain ⟨np, hnp, rfl⟩ := List.mem_map.1 hv
          exact hx ((by simpa using hvx : np.1 = x) ▸ (List.of_mem_zip hnp).1)
        rw [this]
        simp)
  refine ⟨h.funs, h1, fun x => ?_⟩
  rcases h2 x with h | h
  · exact Or.inl (if_pos h)
  · exact Or.inr h

theorem sized_bind {look : Str → Option (Function F)} {ρ : Str → Nat} {c : Context F} (h : Sized look ρ c) (x : Str) (s : F) :
    Sized look (fun n => if n = x then 1 else ρ n) ((c.removeVar x).addVar ⟨x, [.scalar s]⟩) := by
  refine ⟨h.funs, fun v hv => ?_, fun y => ?_⟩
  · simp only [Context.addVar, Context.removeVar, List.mem_append, List.mem_filter, List.mem_singleton] at hv
    rcases hv with ⟨⟨h1, h2⟩, h3⟩ | rfl
    · rw [if_neg (by simpa using h2)]
      exact h.vars v h1
    · simp
  · by_cases hy : y = x
    · exact Or.inl (if_pos hy)
    · refine (h.once y).imp (fun h => by rw [if_neg hy]; exact h) fun h => ?_
      simp only [Context.addVar, Context.removeVar, List.filter_append, List.length_append]
      have e1 : [(⟨x, [.scalar s]⟩ : Variable F)].filter (fun v => v.name == y) = [] := by simp [Ne.symm hy]
      rw [e1, List.length_nil, Nat.add_zero]
      refine le_trans (List.Sublist.length_le ?_) h
      exact (List.filter_sublist.trans List.filter_sublist).filter _

theorem sized_erase {look : Str → Option (Function F)} {ρ : Str → Nat} {c : Context F} (h : Sized look ρ c) (x : Str) (s : F) :
    Sized look (fun n => if n = x then 1 else ρ n) ⟨eraseFirstVar c.vars x ++ [⟨x, [.scalar s]⟩], c.funs⟩ := by
  refine ⟨h.funs, fun v hv => ?_, fun y => ?_⟩
  · rcases List.mem_append.1 hv with hv | hv
    · by_cases hx : v.name = x
      · rw [if_pos hx]
        rcases h.once x with h1 | h1
        · rw [h.vars v (List.mem_of_mem_eraseP hv), hx, h1]
        · exfalso
          have hmem : v ∈ (eraseFirstVar c.vars x).filter fun v => v.name == x := List.mem_filter.2 ⟨hv, by simpa using hx⟩
          have hlen : ((eraseFirstVar c.vars x).filter fun v => v.name == x).length = 0 := by
            have : ∀ l : List (Variable F), (l.filter fun v => v.name == x).length ≤ 1 →
                ((l.eraseP fun v => v.name == x).filter fun v => v.name == x).length = 0 := by
              intro l
              induction l with
              | nil => simp
              | cons u l ih =>
                intro hl
                by_cases hu : (u.name == x) = true
                · rw [List.eraseP_cons_of_pos (p := fun v : Variable F => v.name == x) hu]
                  rw [List.filter_cons_of_pos (p := fun v : Variable F => v.name == x) hu, List.length_cons] at hl
                  omega
                · rw [List.eraseP_cons_of_neg (p := fun v : Variable F => v.name == x) hu, List.filter_cons_of_neg (p := fun v : Variable F => v.name == x) hu]
                  rw [List.filter_cons_of_neg (p := fun v : Variable F => v.name == x) hu] at hl
                  exact ih hl
            exact this _ h1
          rw [List.length_eq_zero_iff] at hlen
          rw [hlen] at hmem
          exact absurd hmem List.not_mem_nil
      · rw [if_neg hx]
        exact h.vars v (List.mem_of_mem_eraseP hv)
    · rw [List.mem_singleton] at hv
      subst hv
      simp
  · by_cases hy : y = x
    · exact Or.inl (if_pos hy)
    · refine (h.once y).imp (fun h => by rw [if_neg hy]; exact h) fun h => ?_
      rw [List.filter_append, List.length_append]
      have e1 : [(⟨x, [.scalar s]⟩ : Variable F)].filter (fun v => v.name == y) = [] := by simp [Ne.symm hy]
      rw [e1, List.length_nil, Nat.add_zero]
      exact le_trans (List.Sublist.length_le ((List.eraseP_sublist).filter _)) h

theorem evalRec_count (cfg : Cfg) (hjs : ∀ j : Int, -1000 ≤ j → j < 1000 → IsFinite (FArith.ofInt j : F)) (look : Str → Option (Function F))
    (n : Nat) (ρ : Str → Nat) {e : AST F} {a b : Nat} (he : ValueCount look ρ e a b) {c : Context F} (hc : Sized look ρ c) (w : Str) :
    Post False (Within a b) (evalRec cfg n e c w) := by
  induction n generalizing e c w ρ a b with
  | zero => simp [evalRec]
  | succ n ih =>
    cases he with
    | scalar s =>
      simp only [evalRec]
      exact ⟨le_rfl, le_rfl⟩
    | vector l h =>
      simp only [evalRec]
      refine Post.bind (mapM_within l _ fun p hp => ?_) fun r hr => ?_
      · refine Post.bind (ih ρ (h p hp) hc w) fun vs hvs => Post.mono (allScalars_count _ vs) fun r hr => ?_
        unfold Within at *
        omega
      · rw [post_ok, Within, List.length_map, cartProd_eq_choices, choices_count]
        exact prod_within l r hr
    | matrix m h =>
      simp only [evalRec]
      have hrow : Post False (fun rows => List.Forall₂ (fun l r => List.Forall₂ (fun p x => Within p.2.1 p.2.2 x) l r) m rows)
          ((m.map fun l => l.map fun p => p.1).mapM fun i => i.mapM fun j => do
            let values ← evalRec cfg n j c w
            allScalars .nonScalarInMatrix values) := by
        have ih' := ih
        clear ih
        induction m with
        | nil => exact .nil
        | cons l m ihm =>
          rw [List.map_cons, List.mapM_cons]
          refine Post.bind (mapM_within l _ fun p hp => ?_) fun r hr => ?_
          · refine Post.bind (ih' ρ (h l (by simp) p hp) hc w) fun vs hvs =>
              Post.mono (allScalars_count _ vs) fun r hr => ?_
            unfold Within at *
            omega
          · exact Post.bind (ihm fun l hl => h l (by simp [hl])) fun rs hrs => .cons hr hrs
      refine Post.bind hrow fun rows hrows => ?_
      rw [post_ok, Within, List.length_map, cartProd_eq_choices, choices_count]
      clear hrow h
      induction hrows with
      | nil => simp
      | cons h1 _ ih1 =>
        simp only [List.map_cons, List.prod_cons, cartProd_eq_choices, choices_count] at ih1 ⊢
        have := prod_within _ _ h1
        exact ⟨Nat.mul_le_mul this.1 ih1.1, Nat.mul_le_mul this.2 ih1.2⟩
    | list l h =>
      simp only [evalRec]
      refine Post.bind (mapM_within l _ fun p hp => ih ρ (h p hp) hc w) fun r hr => ?_
      exact sum_within l r hr
    | «variable» x =>
      simp only [evalRec]
      cases hv : c.findVar x with
      | none => trivial
      | some vs =>
        have := findVar_count hc hv
        exact ⟨this.ge, this.le⟩
    | function g f a b l hf h hbody =>
      simp only [evalRec]
      split
      · trivial
      · rw [hc.funs g, hf]
        simp only
        split
        · trivial
        · rename_i hlen
          have hlen : (l.map fun p => p.1).length = f.inputs.length := by simpa using hlen
          refine Post.bind (mapM_within l _ fun p hp => ih ρ (h p hp) hc w) fun vals hvals => ?_
          refine Post.bind (Post.mapM (P := Within a b) _ fun p hp => ?_) fun r hr => ?_
          · rw [cartProd_eq_choices] at hp
            refine ih _ hbody (sized_call hc f.inputs p ?_) _
            rw [(choices_forall₂ hp).length_eq, ← hvals.length_eq, ← hlen, List.length_map]
          · have h1 := within_flatten hr.2
            have h2 := prod_within l vals hvals
            rw [hr.1, cartProd_eq_choices, choices_count] at h1
            exact within_mul h1 h2.1 h2.2
    | simple op l r a b a' b' hop hl hr =>
      simp only [evalRec]
      refine Post.bind (ih ρ hl hc w) fun lv hlv => ?_
      refine Post.bind (ih ρ hr hc w) fun rv hrv => ?_
      have := applyAll_count op 1 (applyOp_count op hop) hlv hrv
      rwa [Nat.mul_one, Nat.mul_one] at this
    | addSub l r a b a' b' hl hr =>
      simp only [evalRec]
      refine Post.bind (ih ρ hl hc w) fun lv hlv => ?_
      refine Post.bind (ih ρ hr hc w) fun rv hrv => ?_
      exact applyAll_count .addSub 2 applyOp_count2 hlv hrv
    | integral e x a b lo hi h0 hlt he =>
      have hs : ∀ s : F, Post False (Within 1 1) (evalRec cfg n (.scalar s) c w) := fun s => ih ρ (.scalar s) hc w
      have hs' : ∀ s : F, Post False (fun r => r = [Value.scalar s]) (evalRec cfg n (.scalar s) c w) := by
        intro s
        cases n <;> simp [evalRec]
      simp only [evalRec]
      refine Post.bind (hs' lo) fun lv hlv => ?_
      refine Post.bind (hs' hi) fun rv hrv => ?_
      subst hlv hrv
      have hint := calculateIntegral_count cfg n (expr := e) (x := x) (c := c) (ev := fun a c => evalRec cfg n a c [])
        (fun s => ih _ he (sized_erase hc x s) []) lo hi h0 hlt
      refine Post.bind (Post.mapM (P := Within a b) _ fun i hi' => ?_) fun r hr => ?_
      · rw [List.mem_singleton] at hi'
        subst hi'
        refine Post.bind (Post.mapM (P := Within a b) _ fun j hj => ?_) fun r hr => ?_
        · rw [List.mem_singleton] at hj
          subst hj
          exact hint
        · have := within_flatten hr.2
          rw [hr.1] at this
          simpa using this
      · have := within_flatten hr.2
        rw [hr.1] at this
        simpa using this
    | integral_empty e x lo hi h0 =>
      have hs' : ∀ s : F, Post False (fun r => r = [Value.scalar s]) (evalRec cfg n (.scalar s) c w) := by
        intro s
        cases n <;> simp [evalRec]
      simp only [evalRec]
      refine Post.bind (hs' lo) fun lv hlv => ?_
      refine Post.bind (hs' hi) fun rv hrv => ?_
      subst hlv hrv
      have hint : calculateIntegral cfg (fun a c => evalRec cfg n a c []) n e x (.scalar lo) (.scalar hi) c = .ok [.scalar (FArith.ofInt 0)] := by
        unfold calculateIntegral
        simp [h0]
      simp [hint, ok_bind, Within]
    | integral_any e x lo hi a b a' b' a'' b'' he hlo hhi =>
      simp only [evalRec]
      refine Post.bind (ih ρ hlo hc w) fun lv hlv => ?_
      refine Post.bind (ih ρ hhi hc w) fun rv hrv => ?_
      refine Post.bind (Post.mapM (P := Within 0 (rv.length * max 1 b)) _ fun i _ => ?_) fun r hr => ?_
      · refine Post.bind (Post.mapM (P := Within 0 (max 1 b)) _ fun j _ => ?_) fun r hr => ?_
        · exact calculateIntegral_le_count cfg n (fun s => ih _ he (sized_erase hc x s) []) i j
        · have := within_flatten hr.2
          rw [hr.1] at this
          exact ⟨by omega, this.2⟩
      · have := (within_flatten hr.2).2
        rw [hr.1] at this
        refine ⟨by omega, le_trans this ?_⟩
        rw [← Nat.mul_assoc]
        exact Nat.mul_le_mul_right _ (Nat.mul_le_mul hlv.2 hrv.2)
    | derivative e x p a b a' b' he hp =>
      simp only [evalRec]
      refine Post.bind (ih ρ hp hc w) fun lv hlv => ?_
      refine Post.bind (Post.mapM (P := Within a b) _ fun i _ => ?_) fun r hr => ?_
      · unfold calculateDerivative
        cases i <;> try exact (trivial : Post False _ (.err _))
        rename_i s _
        simp only [dropVar_eq]
        have h1 := sized_bind hc x s
        refine Post.bind (ih _ he h1 []) fun fxs hfx => ?_
        have h2 := sized_bind h1 x (FArith.add s (FArith.powi (FArith.ofInt 10) (-(cfg.prec : Int))))
        refine Post.bind (ih (fun n => if n = x then 1 else ρ n) he ?_ []) fun fxhs hfxh => ?_
        · have e1 : (fun n => if n = x then 1 else ρ n) = fun n => if n = x then 1 else if n = x then 1 else ρ n := by
            funext n
            by_cases hn : n = x <;> simp [hn]
          rw [e1]
          exact h2
        · split
          · trivial
          · rename_i hl
            refine Post.bind (Post.mapM (P := Within 1 1) _ fun i hi => ?_) fun r hr => ?_
            · have hl : fxs.length = fxhs.length := by simpa using hl
              have hi : i < fxs.length := List.mem_range.1 hi
              rw [idx_lt (show i < fxhs.length by omega), ok_bind, idx_lt hi, ok_bind]
              exact ih _ (.simple .div _ _ 1 1 1 1 (by decide) (.simple .sub _ _ 1 1 1 1 (by decide) (fromValue_count _ _ _)
                (fromValue_count _ _ _)) (fromValue_count _ _ _)) h2 []
            · have := within_flatten hr.2
              rw [hr.1, List.length_range, Nat.mul_one] at this
              exact ⟨le_trans hfx.1 this.1, le_trans this.2 hfx.2⟩
      · have h1 := within_flatten hr.2
        rw [hr.1] at h1
        exact within_mul h1 hlv.1 hlv.2
    | equation es names =>
      generalize hr : evalRec cfg (n + 1) (.equation es names) c w = r
      cases r with
      | ok vs =>
        have : eval cfg (n + 1) (.equation es names) c = .ok vs := by
          rw [← hr]
          unfold eval
          simp only [evalRec]
        exact ⟨by omega, C46_at_most_ten cfg es names c vs hjs ⟨nofun, n + 1, this⟩⟩
      | err e => trivial
      | panic => exact fun h => h
      | timeout => trivial

/-- The counts of a context without repeated names. -/
theorem sized_context {c : Context F} (h : (c.vars.map (·.name)).Nodup) : Sized (fun g => c.findFun g) (countOf c) c := by
  refine ⟨fun _ => rfl, fun v hv => ?_, fun x => Or.inr ?_⟩
  · unfold countOf Context.findVar
    have : c.vars.find? (fun w => w.name == v.name) = some v := by
      obtain ⟨l, r, hl⟩ := List.append_of_mem hv
      rw [hl] at h ⊢
      rw [List.find?_append]
      have h1 : l.find? (fun w => w.name == v.name) = none := by
        rw [List.find?_eq_none]
        intro u hu hn
        rw [List.map_append, List.map_cons, List.nodup_append] at h
        exact h.2.2 u.name (List.mem_map_of_mem hu) v.name (by simp) (by simpa using hn)
      rw [h1]
      simp
    rw [this]
    rfl
  · generalize c.vars = l at h
    induction l with
    | nil => simp
    | cons u l ih =>
      rw [List.map_cons, List.nodup_cons] at h
      by_cases hu : u.name = x
      · have : l.filter (fun v => v.name == x) = [] := by
          rw [List.filter_eq_nil_iff]
          intro v hv hn
          apply h.1
          rw [hu, ← (by simpa using hn : v.name = x)]
          exact List.mem_map_of_mem hv
        rw [List.filter_cons_of_pos (p := fun v : Variable F => v.name == x) (by simpa using hu), this]
        simp
      · rw [List.filter_cons_of_neg (p := fun v : Variable F => v.name == x) (by simpa using hu)]
        exact ih h.2

/-- C82: the number of values of an expression lies within the bounds counted from the expression and the numbers of values of the
variables. Any arithmetic in which the whole numbers from -1000 to 999 are finite. -/
theorem C82_bounds (cfg : Cfg) (e : AST F) (ctx : Context F) (a b : Nat) (vs : List (Value F))
    (hstart : ∀ j : Int, -1000 ≤ j → j < 1000 → IsFinite (FArith.ofInt j : F)) (hctx : (ctx.vars.map (·.name)).Nodup)
    (he : ValueCount (fun g => ctx.findFun g) (countOf ctx) e a b) (h : Finishes (fun n => eval cfg n e ctx) (.ok vs)) :
    a ≤ vs.length ∧ vs.length ≤ b := by
  obtain ⟨_, n, hn⟩ := h
  exact (evalRec_count cfg hstart _ n _ he (sized_context hctx) []).of_ok hn

/-- C82: where the bounds agree, this is the number of values. -/
theorem C82_exact (cfg : Cfg) (e : AST F) (ctx : Context F) (k : Nat) (vs : List (Value F))
    (hstart : ∀ j : Int, -1000 ≤ j → j < 1000 → IsFinite (FArith.ofInt j : F)) (hctx : (ctx.vars.map (·.name)).Nodup)
    (he : ValueCount (fun g => ctx.findFun g) (countOf ctx) e k k) (h : Finishes (fun n => eval cfg n e ctx) (.ok vs)) :
    vs.length = k := by
  obtain ⟨h1, h2⟩ := C82_bounds cfg e ctx k k vs hstart hctx he h
  omega

theorem oneValued_count {look : Str → Option (Function F)} {e : AST F} (h : OneValued look e) :
    ∀ ρ : Str → Nat, (∀ n, ρ n ≤ 1) → ∃ a b, b ≤ 1 ∧ ValueCount look ρ e a b := by
  have collect : ∀ {ρ : Str → Nat} (l : List (AST F)), (∀ e ∈ l, ∃ a b, b ≤ 1 ∧ ValueCount look ρ e a b) →
      ∃ q : List (AST F × Nat × Nat), q.map (fun p => p.1) = l ∧ (∀ p ∈ q, ValueCount look ρ p.1 p.2.1 p.2.2) ∧
        (q.map fun p => p.2.2).prod ≤ 1 := by
    intro ρ l
    induction l with
    | nil => exact fun _ => ⟨[], rfl, by simp, by simp⟩
    | cons e l ih =>
      intro h
      obtain ⟨a, b, hb, hc⟩ := h e (by simp)
      obtain ⟨q, h1, h2, h3⟩ := ih fun e he => h e (by simp [he])
      refine ⟨(e, a, b) :: q, by simp [h1], ?_, ?_⟩
      · intro p hp
        rcases List.mem_cons.1 hp with rfl | hp
        · exact hc
        · exact h2 p hp
      · rw [List.map_cons, List.prod_cons]
        exact Nat.mul_le_mul hb h3
  induction h with
  | scalar s => exact fun _ _ => ⟨1, 1, le_rfl, .scalar s⟩
  | vector l _ ih =>
    intro ρ hρ
    obtain ⟨q, rfl, h2, h3⟩ := collect l fun e he => ih e he ρ hρ
    exact ⟨_, _, h3, .vector q h2⟩
  | matrix m _ ih =>
    intro ρ hρ
    have : ∃ q : List (List (AST F × Nat × Nat)), q.map (fun l => l.map fun p => p.1) = m ∧
        (∀ l ∈ q, ∀ p ∈ l, ValueCount look ρ p.1 p.2.1 p.2.2) ∧ (q.map fun l => (l.map fun p => p.2.2).prod).prod ≤ 1 := by
      have ih' := fun l hl => collect (ρ := ρ) l fun e he => ih l hl e he ρ hρ
      clear ih
      rename_i h0
      clear h0
      induction m with
      | nil => exact ⟨[], rfl, by simp, by simp⟩
      | cons l m ihm =>
        obtain ⟨q, h1, h2, h3⟩ := ih' l (by simp)
        obtain ⟨qs, h4, h5, h6⟩ := ihm fun l hl => ih' l (by simp [hl])
        refine ⟨q :: qs, by simp [h1, h4], ?_, ?_⟩
        · intro l hl
          rcases List.mem_cons.1 hl with rfl | hl
          · exact h2
          · exact h5 l hl
        · rw [List.map_cons, List.prod_cons]
          exact Nat.mul_le_mul h3 h6
    obtain ⟨q, rfl, h2, h3⟩ := this
    exact ⟨_, _, h3, .matrix q h2⟩
  | «variable» n => exact fun ρ hρ => ⟨_, _, hρ n, .variable n⟩
  | function g args f hf _ _ ihf ih =>
    intro ρ hρ
    obtain ⟨q, rfl, h2, h3⟩ := collect args fun e he => ih e he ρ hρ
    obtain ⟨a, b, hb, hc⟩ := ihf (fun n => if n ∈ f.inputs then 1 else ρ n) fun n => by
      split
      · exact le_rfl
      · exact hρ n
    exact ⟨_, _, Nat.mul_le_mul h3 hb, .function g f a b q hf h2 hc⟩
  | simple op l r hop _ _ il ir =>
    intro ρ hρ
    obtain ⟨a, b, hb, hc⟩ := il ρ hρ
    obtain ⟨a', b', hb', hc'⟩ := ir ρ hρ
    exact ⟨_, _, Nat.mul_le_mul hb hb', .simple op l r a b a' b' hop hc hc'⟩
  | integral e x lo hi _ _ _ ie il ih =>
    intro ρ hρ
    obtain ⟨a, b, hb, hc⟩ := ie (fun n => if n = x then 1 else ρ n) fun n => by
      split
      · exact le_rfl
      · exact hρ n
    obtain ⟨a', b', hb', hc'⟩ := il ρ hρ
    obtain ⟨a'', b'', hb'', hc''⟩ := ih ρ hρ
    refine ⟨_, _, ?_, .integral_any e x lo hi a b a' b' a'' b'' hc hc' hc''⟩
    have h1 : b' * b'' ≤ 1 := Nat.mul_le_mul hb' hb''
    have h2 : max 1 b ≤ 1 := by omega
    exact Nat.mul_le_mul h1 h2
  | derivative e x p _ _ ie ip =>
    intro ρ hρ
    obtain ⟨a, b, hb, hc⟩ := ie (fun n => if n = x then 1 else ρ n) fun n => by
      split
      · exact le_rfl
      · exact hρ n
    obtain ⟨a', b', hb', hc'⟩ := ip ρ hρ
    exact ⟨_, _, Nat.mul_le_mul hb' hb, .derivative e x p a b a' b' hc hc'⟩

/-- C82: an expression without `±`, lists and equations, in a context in which no variable has more than one value, has at most one
value. -/
theorem C82_one (cfg : Cfg) (e : AST F) (ctx : Context F) (vs : List (Value F))
    (hstart : ∀ j : Int, -1000 ≤ j → j < 1000 → IsFinite (FArith.ofInt j : F)) (hctx : (ctx.vars.map (·.name)).Nodup)
    (h1 : ∀ v ∈ ctx.vars, v.values.length ≤ 1) (he : OneValued (fun g => ctx.findFun g) e)
    (h : Finishes (fun n => eval cfg n e ctx) (.ok vs)) : vs.length ≤ 1 := by
  obtain ⟨a, b, hb, hc⟩ := oneValued_count he (countOf ctx) fun n => by
    unfold countOf
    cases hf : ctx.findVar n with
    | none => simp
    | some vs =>
      simp only [Context.findVar, Option.map_eq_some_iff] at hf
      obtain ⟨v, hv, rfl⟩ := hf
      exact h1 v (List.mem_of_find?_eq_some hv)
  exact le_trans (C82_bounds cfg e ctx a b vs hstart hctx hc h).2 hb

/-- `x±f(2*x)` has 16 values where `x` has two and `f(t)={t,1}`. -/
example (two one : F) : ValueCount (F := F) (fun g => if g = ['f'] then some ⟨['f'], .list [.variable ['t'], .scalar one], [['t']]⟩ else none)
    (fun n => if n = ['x'] then 2 else 0)
    (.simple .addSub (.variable ['x']) (.function ['f'] [.simple .mult (.scalar two) (.variable ['x'])])) 16 16 := by
  have hx : ValueCount (F := F) (fun g => if g = ['f'] then some ⟨['f'], .list [.variable ['t'], .scalar one], [['t']]⟩ else none)
    (fun n => if n = ['x'] then 2 else 0) (.variable ['x']) 2 2 := .variable ['x']
  refine .addSub _ _ 2 2 4 4 hx ?_
  refine .function ['f'] _ 2 2 [(_, 2, 2)] (if_pos rfl) ?_ (.list [(.variable ['t'], 1, 1), (.scalar one, 1, 1)] ?_)
  · intro p hp
    rw [List.mem_singleton] at hp
    subst hp
    exact .simple .mult _ _ 1 1 2 2 (by decide) (.scalar two) hx
  · intro p hp
    simp only [List.mem_cons, List.not_mem_nil, or_false] at hp
    rcases hp with rfl | rfl
    · exact .variable ['t']
    · exact .scalar one

end
end MUL
