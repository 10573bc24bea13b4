import Verif.Model.TimeSteppers
import Verif.Spec.Arrays
import Mathlib.Data.List.Forall2
/-!
# Specifications for time steppers
-/

namespace Verif

/-- Value of a quantity of a state at named coordinates (0 if there is none). -/
def State.val (s : State) (q : String) (ix : String → Nat) : Rat :=
  match Dict.get? s q with
  | some (.da a) => a.at' ix
  | _ => 0

/-- Value of a tendency at named coordinates (0 if there is none). -/
def tval (t : Dict DataArray) (q : String) (ix : String → Nat) : Rat :=
  match t.get? q with
  | some a => a.at' ix
  | none => 0

/-- The Adams-Bashforth coefficients: `abCoef k j` is the weight of the tendency `j`
steps ago in the scheme of order `k` (Durran, table 2.1).  `ab_coefficients_unique`
characterises them. -/
def abCoef : Nat → Nat → Rat
  | 1, 0 => 1
  | 2, 0 => 3 / 2
  | 2, 1 => -1 / 2
  | 3, 0 => 23 / 12
  | 3, 1 => -16 / 12
  | 3, 2 => 5 / 12
  | 4, 0 => 55 / 24
  | 4, 1 => -59 / 24
  | 4, 2 => 37 / 24
  | 4, 3 => -9 / 24
  | _, _ => 0

/-- The Adams-Bashforth formula of order `m` for one value: `past j` is the tendency
`j` steps ago. -/
def abFormula (m : Nat) (x dt : Rat) (past : Nat → Rat) : Rat :=
  x + dt * ((List.range m).map fun j => abCoef m j * past j).sum

/-- What the components gave in a call of an AdamsBashforth: their tendencies, in the
state's units per second; `none` if the call raised before it had them. -/
def abTendency {σ : Type} (R : Registry) (prog : Prog σ) (ab : AB) (s : σ) (state : State) (dt : Int) :
    Option (Dict DataArray) :=
  if ab.timestep = none ∨ ab.timestep = some dt then
    match (prog s state dt).2 with
    | .error _ => none
    | .ok r => (convertTendencies R state r.1).toOption
  else none

/-- One call in a history. -/
structure ABRec where
  state : State
  dt : Int
  tend : Option (Dict DataArray)
  res : Except Err (Dict DataArray × State)

/-- A history of calls of an AdamsBashforth. -/
def abTrace {σ : Type} (R : Registry) (prog : Prog σ) : AB → σ → List (State × Int) → List ABRec
  | _, _, [] => []
  | ab, s, (state, dt) :: calls =>
    ⟨state, dt, abTendency R prog ab s state dt, (AB.call R prog ab s state dt).2.2⟩ ::
      abTrace R prog (AB.call R prog ab s state dt).1 (AB.call R prog ab s state dt).2.1 calls

/-- The stepper and world after a history of calls. -/
def abRun {σ : Type} (R : Registry) (prog : Prog σ) : AB → σ → List (State × Int) → AB × σ
  | ab, s, [] => (ab, s)
  | ab, s, (state, dt) :: calls =>
    abRun R prog (AB.call R prog ab s state dt).1 (AB.call R prog ab s state dt).2.1 calls

/-- The call raised after the components' tendencies were known: the step itself
failed (for example because dims have different lengths). -/
def ABRec.stepFailed (r : ABRec) : Prop := r.tend.isSome ∧ ∃ e, r.res = .error e

/-- Only quantities, and possibly the model time under `time`. -/
def State.Regular (s : State) : Prop :=
  (Dict.keys s).Nodup ∧ ∀ n v, Dict.get? s n = some v → (n ≠ "time" → ∃ a, v = .da a)

/-- What the components gave in a call of a Leapfrog. -/
def lfTendency {σ : Type} (R : Registry) (prog : Prog σ) (lf : LF) (s : σ) (state : State) (dt : Int) :
    Option (Dict DataArray) :=
  abTendency R prog { order := 1, timestep := lf.timestep } s state dt

/-- Displacement of the Robert-Asselin filter of strength `ν` (Williams 2009, eq. 5):
half `ν` times the second difference of the three time levels. -/
def filterDisplacement (ν old x new : Rat) : Rat := ν * (old - 2 * x + new) / 2

/-- The stepper and world after a history of calls of a Leapfrog. -/
def lfRun {σ : Type} (R : Registry) (prog : Prog σ) : LF → σ → List (State × Int) → LF × σ
  | lf, s, [] => (lf, s)
  | lf, s, (state, dt) :: calls =>
    lfRun R prog (LF.call R prog lf s state dt).1 (LF.call R prog lf s state dt).2.1 calls

/-- An explicit Runge-Kutta scheme: the stage weights `a i j` (j < i) and the final
weights `b j`. -/
structure Butcher where
  stages : Nat
  a : Nat → Nat → Rat
  b : Nat → Rat

/-- Heun's method, the optimal two-stage SSP scheme. -/
def heun : Butcher where
  stages := 2
  a := fun i j => if i = 1 ∧ j = 0 then 1 else 0
  b := fun _ => 1 / 2

/-- Shu and Osher's three-stage scheme of order three. -/
def shuOsher : Butcher where
  stages := 3
  a := fun i j => if i = 1 ∧ j = 0 then 1 else if i = 2 then 1 / 4 else 0
  b := fun j => if j = 2 then 2 / 3 else 1 / 6

/-- All values of a state, by quantity and named coordinates. -/
abbrev Values := String → (String → Nat) → Rat

/-- Each quantity of the first state has the same attributes (in particular units) in
the second. -/
def SameAttrs (s t : State) : Prop :=
  ∀ q x, Dict.get? s q = some (.da x) → ∃ y, Dict.get? t q = some (.da y) ∧ y.attrs = x.attrs

/-- One step of a Runge-Kutta scheme in Butcher form: stage states `Y i` with stage
tendencies `K i`, evaluated in order by the components (whose world runs through `S`),
all with the time of the initial state; diagnostics are those of the first stage. -/
def IsRKStep {σ : Type} (R : Registry) (prog : Prog σ) (B : Butcher) (s : σ) (state : State) (dt : Int)
    (s' : σ) (diag : Dict DataArray) (out : State) : Prop :=
  ∃ (Y : Nat → State) (K : Nat → Dict DataArray) (S : Nat → σ) (D : Nat → Dict DataArray),
    Y 0 = state ∧ S 0 = s ∧ S B.stages = s' ∧ D 0 = diag ∧
    (∀ i < B.stages,
      (∃ r, prog (S i) (Y i) dt = (S (i + 1), .ok r) ∧ convertTendencies R (Y i) r.1 = .ok (K i) ∧ D i = r.2) ∧
      Dict.get? (Y i) "time" = Dict.get? state "time" ∧
      (∀ q, q ∈ Dict.keys (Y i) ↔ q ∈ Dict.keys state) ∧ SameAttrs state (Y i) ∧
      ∀ q ix, State.val (Y i) q ix = State.val state q ix +
        seconds dt * ((List.range i).map fun j => B.a i j * tval (K j) q ix).sum) ∧
    SameAttrs state out ∧
    ∀ q ix, State.val out q ix = State.val state q ix +
      seconds dt * ((List.range B.stages).map fun j => B.b j * tval (K j) q ix).sum

/-- The time of a state is not a quantity. -/
def State.TimeOk (s : State) : Prop := ∀ a, Dict.get? s "time" ≠ some (.da a)

/-- Two arrays express the same rates, possibly in different units. -/
def SameRate (R : Registry) (v w : DataArray) : Prop :=
  v = w ∨ v.dims = w.dims ∧ v.arr.shape = w.arr.shape ∧
    ∃ u u', v.attrs.get? "units" = some u ∧ w.attrs.get? "units" = some u' ∧
      ∀ idx, SamePhysical R u (v.arr.get idx) u' (w.arr.get idx)

/-- Two results raise the same error or are related. -/
def Exc.Rel {α β : Type} (P : α → β → Prop) : Except Err α → Except Err β → Prop
  | .ok a, .ok b => P a b
  | .error e, .error f => e = f
  | _, _ => False

/-- Two sets of components that do the same and differ at most in the units in which
they return their tendencies. -/
def SameButUnits {σ : Type} (R : Registry) (p p' : Prog σ) : Prop :=
  ∀ s state dt, (p s state dt).1 = (p' s state dt).1 ∧
    Exc.Rel (fun r r' => r.2 = r'.2 ∧ List.Forall₂ (fun a b => a.1 = b.1 ∧ SameRate R a.2 b.2) r.1 r'.1)
      (p s state dt).2 (p' s state dt).2

end Verif
