import Verif.Props.TraceParts
import Verif.Props.EvalCtx
import Verif.Spec.TraceEquation
/-!
# C91: what a call of a function of the context prints
-/

set_option linter.unusedSectionVars false

namespace MUL
open Out Spec

section
variable {F : Type} [FNum F] {cfg : Cfg} {ctx : Context F}

theorem Tr.mapM_congr {L ε α β : Type} {l : List α} {f g : α → Tr L ε β} (h : ∀ a ∈ l, f a = g a) : Tr.mapM f l = Tr.mapM g l := by
  induction l with
  | nil => rfl
  | cons a l ih =>
    show (f a >>= fun b => Tr.mapM f l >>= fun bs => (⟨[], .ok (b :: bs)⟩ : Tr L ε (List β))) =
      (g a >>= fun b => Tr.mapM g l >>= fun bs => (⟨[], .ok (b :: bs)⟩ : Tr L ε (List β)))
    rw [h a (by simp), ih fun a ha => h a (by simp [ha])]

theorem Tr.mapM_all {L ε α β : Type} {l : List α} {f : α → Tr L ε β} {o : α → List L} {r : α → β} (h : ∀ a ∈ l, f a = ⟨o a, .ok (r a)⟩) :
    Tr.mapM f l = ⟨l.flatMap o, .ok (l.map r)⟩ := by
  induction l with
  | nil => rfl
  | cons a l ih =>
    show (f a >>= fun b => Tr.mapM f l >>= fun bs => (⟨[], .ok (b :: bs)⟩ : Tr L ε (List β))) = _
    rw [h a (by simp), ih fun a ha => h a (by simp [ha])]
    show (⟨o a ++ (l.flatMap o ++ []), .ok (r a :: l.map r)⟩ : Tr L ε (List β)) = _
    simp

theorem evalRecT_lastFn (cfg : Cfg) (n : Nat) (b : AST F) (c : Context F) {w w' : Str} (h : ¬ DirectCall w b)
    (h' : ¬ DirectCall w' b) : evalRecT cfg n b c w = evalRecT cfg n b c w' := by
  induction n generalizing b with
  | zero => simp [evalRecT]
  | succ n ih =>
    cases b with
    | scalar s => rfl
    | vector v =>
      simp only [evalRecT]
      rw [Tr.mapM_congr fun a ha => by rw [ih a (fun hd => h (.vector v a ha hd)) (fun hd => h' (.vector v a ha hd))]]
    | matrix m =>
      simp only [evalRecT]
      rw [Tr.mapM_congr fun r hr => Tr.mapM_congr fun a ha => by
        rw [ih a (fun hd => h (.matrix m r a hr ha hd)) (fun hd => h' (.matrix m r a hr ha hd))]]
    | list l =>
      simp only [evalRecT]
      rw [Tr.mapM_congr fun a ha => ih a (fun hd => h (.list l a ha hd)) (fun hd => h' (.list l a ha hd))]
    | «variable» x => rfl
    | function f args =>
      simp only [evalRecT]
      have hw : w ≠ f := fun he => h (he ▸ .here args)
      have hw' : w' ≠ f := fun he => h' (he ▸ .here args)
      rw [if_neg hw, if_neg hw',
        Tr.mapM_congr (l := args) fun a ha => ih a (fun hd => h (.arg f args a ha hd)) (fun hd => h' (.arg f args a ha hd))]
    | simple op l r =>
      simp only [evalRecT]
      rw [ih l (fun hd => h (.left op l r hd)) (fun hd => h' (.left op l r hd)),
        ih r (fun hd => h (.right op l r hd)) (fun hd => h' (.right op l r hd))]
    | integral e x l u =>
      simp only [evalRecT]
      rw [ih l (fun hd => h (.lower e x l u hd)) (fun hd => h' (.lower e x l u hd)),
        ih u (fun hd => h (.upper e x l u hd)) (fun hd => h' (.upper e x l u hd))]
    | derivative e x a =>
      simp only [evalRecT]
      rw [ih a (fun hd => h (.at_ e x a hd)) (fun hd => h' (.at_ e x a hd))]
    | equation es vs => rfl

omit [FNum F] in
theorem addNew_eq (vars acc : List (Variable F)) (hn : (vars.map (·.name)).Nodup) :
    vars.foldl (fun acc i => if (acc.map (·.name)).contains i.name then acc else acc ++ [i]) acc =
      acc ++ vars.filter fun v => !(acc.map (·.name)).contains v.name := by
  induction vars generalizing acc with
  | nil => simp
  | cons i vars ih =>
    simp only [List.map_cons, List.nodup_cons] at hn
    rw [List.foldl_cons, ih _ hn.2]
    cases hc : (acc.map (·.name)).contains i.name with
    | true => rw [if_pos rfl, List.filter_cons_of_neg (by rw [hc]; simp)]
    | false =>
      rw [if_neg (by simp), List.filter_cons_of_pos (by rw [hc]; rfl), List.append_assoc, List.singleton_append]
      refine congrArg (fun t => acc ++ i :: t) (List.filter_congr fun v hv => ?_)
      have hne : v.name ≠ i.name := fun he => hn.1 (he ▸ List.mem_map_of_mem hv)
      rw [List.map_append, Bool.eq_iff_iff]
      simp [hne]

omit [FNum F] in
theorem callVars_eq {params : List Str} {args : List (Value F)} (hl : args.length = params.length) (hn : NoDupVars ctx) :
    (⟨callVars params args ctx.vars, ctx.funs⟩ : Context F) = insideCall ctx params args := by
  unfold callVars insideCall
  dsimp only
  rw [addNew_eq _ _ hn]
  have hm : ((params.zip args).map fun np => (⟨np.1, [np.2]⟩ : Variable F)).map (·.name) = params := by
    rw [List.map_map]
    show (params.zip args).map Prod.fst = params
    exact List.map_fst_zip (by omega)
  rw [hm]
  congr 2
  refine List.filter_congr fun v _ => ?_
  rw [Bool.eq_iff_iff]
  simp

/-- **C91.** A call of a function prints what its arguments print, from left to right, and then what its body prints for every combination of their
values. -/
theorem C91_call (cfg : Cfg) (ctx : Context F) (hn : NoDupVars ctx) (f : Function F) (args : List (AST F)) (ps : List (List (Line F) × List (Value F)))
    (hf : ctx.findFun f.name = some f) (hlen : args.length = f.inputs.length) (hname : f.name ≠ []) (hrec : ¬ DirectCall f.name f.ast)
    (hrec' : ¬ DirectCall [] f.ast) (h : List.Forall₂ (fun e p => Prints (fun n => evalT cfg n e ctx) p.1 (.ok p.2)) args ps)
    (o : List (Value F) → List (Line F)) (res : List (Value F) → List (Value F))
    (hbody : ∀ p ∈ choices (ps.map Prod.snd), Prints (fun n => evalT cfg n f.ast (insideCall ctx f.inputs p)) (o p) (.ok (res p))) :
    Prints (fun n => evalT cfg n (.function f.name args) ctx) (ps.flatMap Prod.fst ++ (choices (ps.map Prod.snd)).flatMap o)
      (.ok ((choices (ps.map Prod.snd)).flatMap res)) := by
  obtain ⟨n1, h1⟩ := parts_budget h
  have hall : ∀ L : List (List (Value F)), (∀ p ∈ L, p ∈ choices (ps.map Prod.snd)) → ∃ n, ∀ m ≥ n, ∀ p ∈ L,
      evalRecT cfg m f.ast (insideCall ctx f.inputs p) [] = ⟨o p, .ok (res p)⟩ := by
    intro L hL
    induction L with
    | nil => exact ⟨0, by simp⟩
    | cons p L ih =>
      obtain ⟨n, hn⟩ := prints_from (hbody p (hL p (by simp)))
      obtain ⟨k, hk⟩ := ih fun q hq => hL q (by simp [hq])
      refine ⟨n + k, fun m hm q hq => ?_⟩
      rcases List.mem_cons.1 hq with rfl | hq
      · exact hn m (by omega)
      · exact hk m (by omega) q hq
  obtain ⟨n2, h2⟩ := hall _ fun _ h => h
  refine ⟨by simp, n1 + n2 + 1, ?_⟩
  show evalRecT cfg _ _ ctx [] = _
  rw [evalRecT]
  simp only [hf, if_neg (Ne.symm hname), if_neg (not_not_intro hlen)]
  rw [h1 _ (by omega)]
  show (⟨_ ++ _, _⟩ : Tr _ _ _) = _
  dsimp only
  rw [cartProd_eq_choices, Tr.mapM_all (o := o) (r := res) fun p hp => by
    have hpl : p.length = f.inputs.length := by rw [choices_length hp, List.length_map, ← h.length_eq, hlen]
    rw [evalRecT_lastFn cfg _ f.ast _ hrec hrec', callVars_eq hpl hn, h2 _ (by omega) p hp]]
  show (⟨_ ++ (_ ++ []), .ok _⟩ : Tr _ _ _) = _
  rw [List.append_nil, List.flatMap_def (f := res)]

end

/-- With `f(c)=I(c,t,0,1)`, the call of `f` with the values `2` and `3` prints `[2]` and then `[3]`. -/
example : ∃ r, Prints (fun n => evalT ⟨3, true, by decide⟩ n (.function ['f'] [.list [.scalar (FArith.ofInt 2), .scalar (FArith.ofInt 3)]])
      (⟨[⟨['c'], [.scalar (FArith.ofInt 9)]⟩], [⟨['f'], .integral (.variable ['c']) ['t'] (.scalar (FArith.ofInt 0)) (.scalar (FArith.ofInt 1)), [['c']]⟩]⟩ :
        Context Q))
    [[.scalar (FArith.ofInt 2)], [.scalar (FArith.ofInt 3)]] (.ok r) := by
  refine ⟨_, C91_call _ _ (by simp [NoDupVars]) ⟨['f'], .integral (.variable ['c']) ['t'] (.scalar (FArith.ofInt 0)) (.scalar (FArith.ofInt 1)), [['c']]⟩
    _ [([], [.scalar (FArith.ofInt 2), .scalar (FArith.ofInt 3)])] rfl rfl (by simp) (by intro h; cases h <;> contradiction)
    (by intro h; cases h <;> contradiction) (.cons ⟨by simp, 2, rfl⟩ .nil) (fun p => [p])
    (fun p => p.map fun v => match v with
      | .scalar a => .scalar (FArith.mul a (FArith.div (FArith.sub (FArith.ofInt 1) (FArith.ofInt 0)) (FArith.powi (FArith.ofInt 10) 0)))
      | v => v) ?_⟩
  intro p hp
  have hp : p = [.scalar (FArith.ofInt 2)] ∨ p = [.scalar (FArith.ofInt 3)] := by simpa [choices] using hp
  rcases hp with rfl | rfl <;> exact ⟨by simp, 9, by with_unfolding_all rfl⟩

end MUL
