import Verif.Spec.TimeSteppers
import Verif.Model.Backend
/-!
# Specification of C82: what a backend stands for
-/

namespace Verif

/-- The entries of two dictionaries correspond, in order and with the same keys. -/
def DictRel {α β : Type} (r : α → β → Prop) (d : Dict α) (e : Dict β) : Prop :=
  List.Forall₂ (fun a b => a.1 = b.1 ∧ r a.2 b.2) d e

/-- `rep v w`: the value `v` of a state under the backend stands for the DataArray or model
time `w`.  A backend implements the interface if what it reports of `v` is what the default
backend reports of `w`, and if the containers it creates stand for the DataArrays the default
backend creates. -/
structure Implements (R : Registry) {V : Type} (B : Backend V) (rep : V → Val → Prop) : Prop where
  dims : ∀ v a, rep v (.da a) → B.dims v = .ok a.dims
  shape : ∀ v a, rep v (.da a) → B.shape v = .ok a.arr.shape
  array : ∀ v a, rep v (.da a) → ∀ n u ds lens, B.getArray v n u ds lens = getArray R a u ds lens
  timeDims : ∀ v t, rep v (.time t) → B.dims v = .error .attributeError
  timeArray : ∀ v t, rep v (.time t) → ∀ n u ds lens, B.getArray v n u ds lens = .error .attributeError
  create : ∀ data n u ds state state', DictRel rep state state' →
    Exc.Rel (fun v a => rep v (.da a)) (B.create data n u ds state) (DataArray.mk' data ds [("units", u)])
  container : ∀ v a, rep v (.da a) → B.isContainer v = true

/-- Quantities that stand for DataArrays. -/
def RepQ {V : Type} (rep : V → Val → Prop) (v : V) (a : DataArray) : Prop := rep v (.da a)

/-- Same arrays, and the same time. -/
def RepRaw {V : Type} (rep : V → Val → Prop) (r : RawB V) (r' : RawState) : Prop :=
  r.arrays = r'.arrays ∧ rep r.time r'.time

/-- The world is left the same, and the results correspond or the exceptions are the same. -/
def RepOut {σ α β : Type} (P : α → β → Prop) (x : σ × Except Err α) (y : σ × Except Err β) : Prop :=
  x.1 = y.1 ∧ Exc.Rel P x.2 y.2

/-- Pairs of dictionaries of quantities that stand for each other. -/
def RepPair {V : Type} (rep : V → Val → Prop) (x : Dict V × Dict V) (y : Dict DataArray × Dict DataArray) : Prop :=
  DictRel (RepQ rep) x.1 y.1 ∧ DictRel (RepQ rep) x.2 y.2

/-- The objects of a backend have the attributes and operations of DataArrays. -/
structure Mimics (R : Registry) {V : Type} (O : ContainerOps V) (rep : V → Val → Prop) : Prop where
  attrs : ∀ v a, rep v (.da a) → O.attrs v = .ok a.attrs
  timeAttrs : ∀ v t, rep v (.time t) → O.attrs v = .error .attributeError
  toUnits : ∀ v a, rep v (.da a) → ∀ u, Exc.Rel (RepQ rep) (O.toUnits v u) (a.toUnits R u)
  iadd : ∀ v w a b, rep v (.da a) → rep w (.da b) → Exc.Rel (RepQ rep) (O.iadd v w) (a.iadd b)
  add : ∀ v w a b, rep v (.da a) → rep w (.da b) → Exc.Rel (RepQ rep) (O.add v w) (a.add b)
  copy : ∀ v a, rep v (.da a) → Exc.Rel (RepQ rep) (O.copy v) (.ok a)

end Verif
