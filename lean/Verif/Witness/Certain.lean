import Verif.Props.Certain
import Verif.Num.Real
/-!
# Concrete cases for C104  (Props/Certain.lean)
-/

namespace MUL
open Out Spec FArith

attribute [local instance] UTable.ascii

theorem wQFinite : ∀ j : Int, -1000 ≤ j → j < 1000 → IsFinite (FArith.ofInt j : Q) := fun _ _ _ => ⟨rfl, rfl⟩

/-- `D(f(M*v)*t&t,t,3)` with a 3 × 2 matrix `M`, a vector `v` and `f(u) = u*u`. -/
def wCertain : AST Q := .derivative (.simple .addSub (.simple .mult (.function ['f'] [.simple .mult (.variable ['M']) (.variable ['v'])])
  (.variable ['t'])) (.variable ['t'])) ['t'] (.scalar (FArith.ofDec 3 0))

theorem wCertain_certain (M : List (List Q)) (v : List Q) : Certain (shapeCtx M v).findFun shapeEnv wCertain .num := by
  refine .derivative _ _ _ _ (.scalar _) (.simple _ _ _ .num .num _ (.simple _ _ _ .num .num _ ?_ (.variable _ _ rfl) rfl (by simp [Unconditional]))
    (.variable _ _ rfl) rfl (by simp [Unconditional]))
  refine .function _ _ _ [.vec 3] _ (by decide) rfl rfl rfl (fun p hp => ?_) ?_
  · rcases List.mem_singleton.1 hp with rfl
    exact .simple _ _ _ (.mat 3 2) (.vec 2) _ (.variable _ _ rfl) (.variable _ _ rfl) rfl (by simp [Unconditional])
  · exact .simple _ _ _ (.vec 3) (.vec 3) _ (.variable _ _ rfl) (.variable _ _ rfl) rfl (by simp [Unconditional])

def wM32 : List (List Q) := [[.fin 1, .fin 2], [.fin 3, .fin 4], [.fin 5, .nan]]
def wV2 : List Q := [.fin 7, .fin 0]

example := C104_succeeds Cfg.default wQFinite (shapeCtx wM32 wV2) shapeEnv wCertain .num (wCertain_certain _ _) (by simp [NoDupVars, shapeCtx])
  (shapeCtx_ok wM32 wV2 (by decide) rfl).1 (by simp [shapeCtx])
example := C104_text Cfg.default wQFinite (shapeCtx wM32 wV2) shapeEnv (str! "D(f(M*v)*t&t,t,3)") wCertain .num
  (by rfl) (wCertain_certain _ _) (by simp [NoDupVars, shapeCtx]) (shapeCtx_ok wM32 wV2 (by decide) rfl).1 (by simp [shapeCtx])

/-- two values, whatever `M` and `v` are -/
example := (C104_count Cfg.default wQFinite (shapeCtx wM32 wV2).funs shapeEnv wCertain .num (wCertain_certain wM32 wV2)
  (countOf (shapeCtx wM32 wV2)) (by simp [shapeCtx])).imp fun _ h =>
    h (shapeCtx wM32 wV2).vars (by simp [NoDupVars, shapeCtx]) (shapeCtx_ok wM32 wV2 (by decide) rfl).1 (fun _ => rfl)
example := C104_excluded (F := Q) (.fin 2) (by decide +kernel) (by decide +kernel) (by decide +kernel) (by decide +kernel) (.fin (1/2)) (by decide +kernel)
  (.fin 0) (by decide +kernel)

end MUL
