import Verif.Spec.Alike
/-!
# The same run on another date (C123)
-/

namespace Verif

variable {V : Type}

/-- A state with its time moved by `δ`. -/
def shiftState (δ : Int) (y : EState V) : EState V :=
  Dict.mapVal (fun v => match v with
    | .da a => .da a
    | .time t => .time (t + δ)) y

/-- Components for which the date does not matter: on the state moved in time they return the same, or raise the same
exception.  `Z` relates what they remember to what they remember in the run that is moved in time. -/
def DateBlind {σ : Type} (δ : Int) (Z : σ → σ → Prop) (p : ProgOver σ V) : Prop :=
  ∀ s s' y dt, Z s s' → Z (p s y dt).1 (p s' (shiftState δ y) dt).1 ∧ (p s y dt).2 = (p s' (shiftState δ y) dt).2

/-- What an UpdateFrequencyWrapper remembers, moved in time: the same outputs, the last update `δ` later. -/
def shiftUFW {Out : Type} (δ : Int) (w : UFW Out) : UFW Out := { w with last := w.last.map (· + δ) }

/-- What a Leapfrog remembers, moved in time. -/
def shiftLF (δ : Int) (lf : LFOver V) : LFOver V := { lf with old := lf.old.map (shiftState δ) }

/-- Between two calls: `new_state['time'] = state['time'] + timestep`. -/
def advance (dt : Int) (y : EState V) : EState V :=
  match Dict.get? y "time" with
  | some (.time t) => Dict.set y "time" (.time (t + dt))
  | _ => y

/-- A run of a main loop that takes `n` steps from `y`: the time stepper, what the components remember, and the last
state or the exception. -/
structure SameButDate {τ σ : Type} (δ : Int) (mem : τ → τ) (Z : σ → σ → Prop)
    (r r' : τ × σ × Except Err (EState V)) : Prop where
  stepper : r'.1 = mem r.1
  world : Z r.2.1 r'.2.1
  state : r'.2.2 = match r.2.2 with
    | .ok y => .ok (shiftState δ y)
    | .error e => .error e

end Verif
