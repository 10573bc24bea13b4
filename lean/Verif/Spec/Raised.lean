import Verif.Model.Elements
/-!
# Which exceptions calls raise (C124)
-/

namespace Verif

/-- Whatever is raised is one of `X`. -/
def RaisesOnly (X : Err → Prop) {α : Type} (r : Except Err α) : Prop := ∀ e, r = .error e → X e

/-- The operations on arrays raise nothing but `X`. -/
structure ArithRaises {V : Type} (X : Err → Prop) (A : Arith V) : Prop where
  add : ∀ a b, RaisesOnly X (A.add a b)
  sub : ∀ a b, RaisesOnly X (A.sub a b)
  iadd : ∀ a b, RaisesOnly X (A.iadd a b)
  toUnits : ∀ a u, RaisesOnly X (A.toUnits a u)

/-- The exceptions that the code of the time steppers raises itself, or that Python raises in it: no entry of that name
in a dictionary, another timestep than before, a time where there should be a quantity, a diagnostic of the name of a
tendency. -/
def StepperErr (e : Err) : Prop := e = .keyError ∨ e = .valueError ∨ e = .attributeError ∨ e = .runtimeError

/-- A component that raises nothing but `X`, on any state. -/
def ProgRaises {σ V : Type} (X : Err → Prop) (p : ProgOver σ V) : Prop := ∀ s y dt, RaisesOnly X (p s y dt).2

/-- The exceptions of a time stepper around components that raise `P`. -/
def CallErr (P : Err → Prop) (e : Err) : Prop := P e ∨ StepperErr e ∨ e = .invalidState ∨ e = .undefinedUnit

end Verif
