import Verif.Spec.TimeSteppers
/-!
# Attempts at stepping, some of which fail

Independent of the time steppers: what a caller sees of a list of attempts, and what
it means that some of them could as well not have been made.
-/

namespace Verif

/-- One attempt at a step: the state passed in, the components as they behave during
this attempt, and their world at its start.  Different attempts may have entirely
different components, so nothing is assumed about what makes one fail. -/
structure Attempt (σ : Type) where
  prog : Prog σ
  world : σ
  state : State

/-- What the caller sees of each attempt: the world, the state passed in (which a
stepper may have changed) and the result or exception. -/
abbrev StepSeen (σ : Type) := σ × State × Except Err (Dict DataArray × State)

/-- The attempts made one after the other on the same object, each with what was seen of
it. -/
def attempts {τ α β : Type} (call : τ → α → τ × β) : τ → List α → List (α × β)
  | _, [] => []
  | x, a :: as => (a, (call x a).2) :: attempts call (call x a).1 as

/-- The attempts for which `bad` holds could as well not have been made: the others,
made alone, give exactly what they gave. -/
def CanBeLeftOut {τ α β : Type} (call : τ → α → τ × β) (x : τ) (bad : α × β → Bool) (as : List α) : Prop :=
  attempts call x (((attempts call x as).filter (fun p => !bad p)).map Prod.fst) =
    (attempts call x as).filter (fun p => !bad p)

/-- An attempt with a time stepper, as a function of the stepper's memory. -/
def stepWith {τ σ : Type} (call : Prog σ → τ → σ → State → Int → τ × StepSeen σ) (dt : Int) (x : τ) (a : Attempt σ) :
    τ × StepSeen σ :=
  call a.prog x a.world a.state dt

/-- No tendencies came out of the components: one of them raised, or a tendency could
not be expressed in the units of its quantity per second. -/
def NoTendencies {σ : Type} (R : Registry) (dt : Int) (a : Attempt σ) : Bool :=
  match (a.prog a.world a.state dt).2 with
  | .error _ => true
  | .ok r => match convertTendencies R a.state r.1 with
    | .error _ => true
    | .ok _ => false

/-- An attempt of which the caller got an exception. -/
def Raised {σ : Type} (p : Attempt σ × StepSeen σ) : Bool :=
  match p.2.2.2 with
  | .error _ => true
  | .ok _ => false

end Verif
