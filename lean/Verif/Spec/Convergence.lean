import Verif.Spec.RoundingErrors
import Mathlib.Analysis.Calculus.Deriv.Basic
import Mathlib.Analysis.Convex.Basic
import Mathlib.Data.Nat.Factorial.Basic
/-!
# Solutions of differential equations that runs should follow

`y j q ix t` is the `j`-th derivative at time `t` (in seconds) of the solution at the place `ix` of the quantity `q`.
-/

namespace Verif

/-- Solutions with their derivatives. -/
abbrev Trajectory := Nat → String → (String → Nat) → ℝ → ℝ

/-- During the times `J`, the quantities `Q` have derivatives up to the `k + 1`-th; the `j`-th is bounded by
`D j`, each on the scale `w` of its quantity. -/
structure SmoothDuring (I : (String → Nat) → Prop) (w : String → Rat) (Q : String → Prop) (y : Trajectory) (J : Set ℝ)
    (k : Nat) (D : Nat → Rat) : Prop where
  deriv : ∀ j ≤ k, ∀ q, Q q → ∀ ix, I ix → ∀ t ∈ J, HasDerivAt (y j q ix) (y (j + 1) q ix t) t
  bound : ∀ j ≤ k + 1, ∀ q, Q q → ∀ ix, I ix → ∀ t ∈ J, |y j q ix t| ≤ D j * w q

/-- Every quantity of `Q` is in the state and within `E` of the solution at time `t`. -/
def NearSolution (I : (String → Nat) → Prop) (w : String → Rat) (Q : String → Prop) (y : Trajectory) (E : Rat) (t : ℝ)
    (x : EState DataArray) : Prop :=
  ∀ q, Q q → ∃ a, Dict.get? x q = some (.da a) ∧ ∀ ix, I ix → |(a.at' ix : ℝ) - y 0 q ix t| ≤ (E : ℝ) * w q

/-- Every quantity of `Q` has a tendency, within `E` of the derivative of the solution at time `t`. -/
def NearDerivative (I : (String → Nat) → Prop) (w : String → Rat) (Q : String → Prop) (y : Trajectory) (E : Rat) (t : ℝ)
    (v : Dict DataArray) : Prop :=
  ∀ q, Q q → q ∈ Dict.keys v ∧ ∀ ix, I ix → |(tval v q ix : ℝ) - y 1 q ix t| ≤ (E : ℝ) * w q

/-- The constant of the truncation error of the Adams-Bashforth scheme of order `m`: 1/2, 5/12, 59/72, 577/240. -/
def abTruncation (m : Nat) : Rat :=
  1 / (m + 1).factorial + ((List.range m).map fun j => |abCoef m j| * (j : Rat) ^ m).sum / m.factorial

/-- A bound for the truncation error of step `i` (from 0) of a new AdamsBashforth of order `k`, whose first steps are
of the orders 1, 2, … . -/
def abStepError (k : Nat) (D : Nat → Rat) (h : Rat) (i : Nat) : Rat :=
  abTruncation (min k (i + 1)) * D (min k (i + 1) + 1) * |h| ^ (min k (i + 1) + 1)

/-- A bound for the errors that are added in a step besides truncation: those of the tendencies, which the components
compute with accuracy `e`, and of rounding. -/
def addedError (u e X T h : Rat) : Rat :=
  |h| * (20 / 3) * e + ((1 + u) ^ 8 - 1) * (X + |h| * (20 / 3) * T)

end Verif
