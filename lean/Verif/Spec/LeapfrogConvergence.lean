import Verif.Spec.Convergence
/-! # Leapfrog runs that follow the solution of a differential equation -/

namespace Verif

/-- A bound for the truncation error of step `i` (from 0) of a new Leapfrog with a filter of strength `ν`: the first
step is a step of Euler's scheme; the filter moves the values towards the mean of those before and after. -/
def lfStepError (ν : Rat) (D : Nat → Rat) (h : Rat) (i : Nat) : Rat :=
  if i = 0 then D 2 / 2 * |h| ^ 2 else ν * (D 2 / 2 * |h| ^ 2) + D 3 / 3 * |h| ^ 3

/-- A bound for the errors that are added in a step besides truncation: those of the tendencies, which the components
compute with accuracy `e`, and of at most eleven roundings one after the other. -/
def lfAddedError (u e X T h : Rat) : Rat := 2 * |h| * e + ((1 + u) ^ 11 - 1) * (3 * X + 3 * (|h| * T))

end Verif
