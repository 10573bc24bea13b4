import Verif.Props.SteadyRuns
/-!
# The time stepping schemes for one number (C98)

The schemes as given in textbooks, for an equation `y' = f y` of one unknown, and what it
means that components act on a quantity at a point in this way.
-/

namespace Verif

/-- A sequence of values made by the Adams-Bashforth scheme of order `k` with timestep `h`,
which starts with the schemes of lower order. -/
def IsAdamsBashforth (k : Nat) (h : Rat) (f : Rat → Rat) (y : Nat → Rat) : Prop :=
  ∀ i, y (i + 1) = abFormula (min k (i + 1)) (y i) h (fun j => f (y (i - j)))

/-- A sequence of values `y` made by the leapfrog scheme with a Robert-Asselin-Williams
filter of strength `ν` and parameter `α`, the first step being one of Euler's method; `x` are
the values of the previous step after filtering. -/
structure IsLeapfrog (ν α h : Rat) (f : Rat → Rat) (x y : Nat → Rat) : Prop where
  first : x 1 = y 0 ∧ y 1 = y 0 + h * f (y 0)
  later : ∀ i, 1 ≤ i →
    x (i + 1) = y i + α * filterDisplacement ν (x i) (y i) (x i + 2 * h * f (y i)) ∧
    y (i + 1) = x i + 2 * h * f (y i) - (1 - α) * filterDisplacement ν (x i) (y i) (x i + 2 * h * f (y i))

/-- One step of Heun's method or of the third order scheme of Shu and Osher. -/
def rkStep (three : Bool) (h : Rat) (f : Rat → Rat) (y : Rat) : Rat :=
  let a := f y
  let b := f (y + h * a)
  if three then y + h * (a + b + 4 * f (y + h * (a + b) / 4)) / 6 else y + h * (a + b) / 2

/-- The values that the Adams-Bashforth scheme makes of 1 under `y' = -y`, newest first. -/
def abPast (k : Nat) (z : Rat) : Nat → List Rat
  | 0 => [1]
  | n + 1 => abFormula (min k (n + 1)) ((abPast k z n).getD 0 0) z (fun j => -(abPast k z n).getD j 0) :: abPast k z n

/-- What remains of a distance of 1 after `n` steps of the Adams-Bashforth scheme of order
`k`, the timestep being `z` times the timescale. -/
def abDecay (k : Nat) (z : Rat) (n : Nat) : Rat := (abPast k z n).getD 0 0

/-- Filtered distance of the previous step and distance after `n + 1` steps of the leapfrog
scheme. -/
def lfPair (ν α z : Rat) : Nat → Rat × Rat
  | 0 => (1, 1 - z)
  | n + 1 =>
    let x := (lfPair ν α z n).1
    let y := (lfPair ν α z n).2
    let w := x - 2 * z * y
    (y + α * filterDisplacement ν x y w, w - (1 - α) * filterDisplacement ν x y w)

/-- What remains of a distance of 1 after `n` steps of the leapfrog scheme. -/
def lfDecay (ν α z : Rat) : Nat → Rat
  | 0 => 1
  | n + 1 => (lfPair ν α z n).2

/-- What a step of SSPRungeKutta leaves of a distance of 1. -/
def rkDecay (three : Bool) (z : Rat) : Rat := 1 - z + z ^ 2 / 2 - if three then z ^ 3 / 6 else 0

/-- The sequence tends to 0. -/
def Vanishes (y : Nat → Rat) : Prop := ∀ ε > 0, ∃ N, ∀ n ≥ N, |y n| < ε

/-- The sequence is not bounded. -/
def Unbounded (y : Nat → Rat) : Prop := ∀ B, ∃ n, B < |y n|

/-- A state in which `q` and the quantities of `F` have the units they have in `state0`, and
those of `F` the same value at `ix`. -/
structure SameHere (q : String) (F : List String) (ix : String → Nat) (state0 state : State) : Prop where
  units : ∀ k, k = q ∨ k ∈ F → ∀ u, HasUnits state0 k u → HasUnits state k u
  value : ∀ k ∈ F, State.val state k ix = State.val state0 k ix

/-- Components that give no tendency to the quantities of `F`, and which, as long as these
have the value they have in `state0`, give `q` at `ix` a tendency that is the function `f` of
the value of `q` there, in units of the state per second. -/
def ActsAs {σ : Type} (R : Registry) (prog : Prog σ) (dt : Int) (q : String) (F : List String) (ix : String → Nat)
    (state0 : State) (f : Rat → Rat) : Prop :=
  ∀ s state r t, SameHere q F ix state0 state → (prog s state dt).2 = .ok r → convertTendencies R state r.1 = .ok t →
    q ∈ Dict.keys t ∧ (∀ k ∈ F, k ∉ Dict.keys t) ∧ tval t q ix = f (State.val state q ix)

end Verif
