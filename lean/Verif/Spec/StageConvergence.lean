import Verif.Spec.Convergence
import Verif.Spec.StageErrors
/-! # Runge-Kutta runs that follow the solution of a differential equation -/

namespace Verif

/-- The components compute the right hand side of the (autonomous) differential equation that `y` solves, with Lipschitz
constant `L`: on states within `E` of the solution at any time, they give tendencies within `L E` of its derivative. -/
def FollowsSolution {σ : Type} (I : (String → Nat) → Prop) (w : String → Rat) (Q : String → Prop) (y : Trajectory)
    (J : Set ℝ) (L : Rat) (A : Arith DataArray) (p : ProgOver σ DataArray) (dt : Int) : Prop :=
  ∀ s x r t E τ, τ ∈ J → 0 ≤ E → NearSolution I w Q y E τ x → (p s x dt).2 = .ok r →
    convertTendenciesO A x r.1 = .ok t → NearDerivative I w Q y (L * E) τ t

/-- A bound for the truncation error of a step with two or three stages. -/
def stageTruncation (three : Bool) (L : Rat) (D : Nat → Rat) (h : Rat) : Rat :=
  |h| ^ 3 * if three then L * D 2 * (1 / 3 + |h| * L / 12) + D 3 / 3 else L * D 2 / 4 + 5 / 12 * D 3

end Verif
