import Verif.Model.UpdateOver
import Verif.Spec.Convergence
import Verif.Spec.StageErrors
/-! # Runge-Kutta runs of components whose tendencies depend on the time -/

namespace Verif

/-- The components compute the right hand side, which may depend on the time, of the differential equation that `y`
solves: on states within `E` of the solution at the time of the state, they give tendencies within `L E` of its derivative
at that time. -/
def FollowsInTime {σ : Type} (I : (String → Nat) → Prop) (w : String → Rat) (Q : String → Prop) (y : Trajectory)
    (J : Set ℝ) (L : Rat) (A : Arith DataArray) (p : ProgOver σ DataArray) (dt : Int) : Prop :=
  ∀ s x r t E now, EState.clock x = .ok now → (seconds now : ℝ) ∈ J → 0 ≤ E → NearSolution I w Q y E (seconds now) x →
    (p s x dt).2 = .ok r → convertTendenciesO A x r.1 = .ok t → NearDerivative I w Q y (L * E) (seconds now) t

/-- A bound for the error that a step of two or three stages adds if all stages are computed for the time at which the
step begins. -/
def lateTruncation (three : Bool) (L : Rat) (D : Nat → Rat) (h : Rat) : Rat :=
  |h| ^ 2 * (D 2 / 2 + L * D 1 * (1 / 2 + if three then |h| * L / 6 else 0))

/-- A bound for what errors `e` in the tendencies add in such a step. -/
def lateAdded (three : Bool) (L e h : Rat) : Rat :=
  |h| * e * (1 + |h| * L / 2 + if three then (|h| * L) ^ 2 / 6 else 0)

/-- The tendencies of the quantities `Q` depend on nothing but the time: they are `f now`. -/
def GivenByTime {σ : Type} (I : (String → Nat) → Prop) (Q : String → Prop) (A : Arith DataArray) (p : ProgOver σ DataArray)
    (dt : Int) (f : Int → String → (String → Nat) → Rat) : Prop :=
  ∀ s x r t now, EState.clock x = .ok now → (p s x dt).2 = .ok r → convertTendenciesO A x r.1 = .ok t →
    ∀ q, Q q → ∀ ix, I ix → tval t q ix = f now q ix

end Verif
