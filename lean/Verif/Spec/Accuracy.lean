import Mathlib.Analysis.SpecialFunctions.ExpDeriv
/-!
# Specification for the accuracy of runs
-/

namespace Verif

/-- `y` is the quantity as a function of the time in seconds if it is relaxed to `E` with the
timescale `T`, being `x0` at first: the solution of the differential equation that
RelaxationTendencyComponent is documented to give the tendency of. -/
structure SolvesRelaxation (E T x0 : Rat) (y : ℝ → ℝ) : Prop where
  start : y 0 = x0
  equation : ∀ t, HasDerivAt y (((E : ℝ) - y t) / T) t

/-- The longest timestep, in timescales, for which the bound of the error is shown. -/
def abStepLimit : Nat → Rat
  | 1 => 1
  | 2 => 2 / 3
  | 3 => 12 / 23
  | _ => 24 / 55

/-- A bound of the error of `n` steps of AdamsBashforth with a timestep of `z` timescales, as a
part of the distance from equilibrium at the start: from the first steps, which are of lower
order, and from the others. -/
noncomputable def abError (k : Nat) (z : ℝ) (n : Nat) : ℝ :=
  match k with
  | 1 => n * (z ^ 2 / 2)
  | 2 => z ^ 2 / 2 + n * (4 / 3 * z ^ 3)
  | 3 => z ^ 2 / 2 + 4 / 3 * z ^ 3 + n * (18 / 5 * z ^ 4)
  | _ => (1 + 25 / 12 * z) ^ n * (z ^ 2 / 2 + 4 / 3 * z ^ 3 + 18 / 5 * z ^ 4 + n * (51 / 5 * z ^ 5))

end Verif
