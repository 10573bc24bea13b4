import Verif.Spec.Layout
import Verif.Spec.Backend
import Verif.Model.TimeSteppers
/-!
# Specification of C91: axes reordered, dimensions renamed, one column
-/

namespace Verif

/-- `b` is `a` with its axes in another order. -/
def Reordered (a b : DataArray) : Prop := a.WF ∧ b.WF ∧ SameByName a b

/-- `b` is `a` with the dimensions renamed by `f`. -/
def Renamed (f : String → String) (a b : DataArray) : Prop := a.WF ∧ b = { a with dims := a.dims.map f }

/-- `b` is `a` at position `i` along the dimension `d`, which has length `n`
(`a.isel(d=i)`). -/
structure Column (d : String) (n i : Nat) (a b : DataArray) : Prop where
  wf : a.WF
  wf' : b.WF
  has : d ∈ a.dims
  length : a.len d = n
  within : i < n
  dims : b.dims = a.dims.erase d
  len : ∀ e ∈ b.dims, b.len e = a.len e
  attrs : a.attrs = b.attrs
  val : ∀ ix : String → Nat, (∀ e ∈ b.dims, ix e < b.len e) → b.at' ix = a.at' (fun e => if e = d then i else ix e)

/-- Entries of states: quantities correspond, times are equal. -/
def ValRel (Q : DataArray → DataArray → Prop) : Val → Val → Prop
  | .da a, .da b => Q a b
  | .time t, .time t' => t = t'
  | _, _ => False

/-- States with the same names in the same order, whose quantities correspond. -/
abbrev StatesRel (Q : DataArray → DataArray → Prop) (s s' : State) : Prop := DictRel (ValRel Q) s s'

/-- Components which, on states that correspond, do the same to the world and return
tendencies and diagnostics that correspond, or raise the same exception. -/
def ProgsRel {σ : Type} (Q : DataArray → DataArray → Prop) (p p' : Prog σ) : Prop :=
  ∀ s state state' dt, StatesRel Q state state' →
    (p s state dt).1 = (p' s state' dt).1 ∧
    Exc.Rel (fun x y => DictRel Q x.1 y.1 ∧ DictRel Q x.2 y.2) (p s state dt).2 (p' s state' dt).2

/-- Corresponding memories of an AdamsBashforth. -/
def ABsRel (Q : DataArray → DataArray → Prop) (x y : AB) : Prop :=
  x.order = y.order ∧ x.timestep = y.timestep ∧ List.Forall₂ (DictRel Q) x.hist y.hist

/-- Corresponding memories of a Leapfrog. -/
def LFsRel (Q : DataArray → DataArray → Prop) (x y : LF) : Prop :=
  x.strength = y.strength ∧ x.alpha = y.alpha ∧ x.timestep = y.timestep ∧
    match x.old, y.old with
    | none, none => True
    | some s, some s' => StatesRel Q s s'
    | _, _ => False

/-- Corresponding results of a call: the stepper afterwards, the components' world, the
state passed in, and what is returned or raised. -/
def CallRel {τ σ : Type} (M : τ → τ → Prop) (Q : DataArray → DataArray → Prop)
    (r r' : τ × σ × State × Except Err (Dict DataArray × State)) : Prop :=
  M r.1 r'.1 ∧ r.2.1 = r'.2.1 ∧ StatesRel Q r.2.2.1 r'.2.2.1 ∧
    Exc.Rel (fun a b => DictRel Q a.1 b.1 ∧ StatesRel Q a.2 b.2) r.2.2.2 r'.2.2.2

/-- Corresponding ends of runs. -/
def RunRel {τ σ : Type} (M : τ → τ → Prop) (Q : DataArray → DataArray → Prop) :
    Option (τ × σ × State) → Option (τ × σ × State) → Prop
  | none, none => True
  | some r, some r' => M r.1 r'.1 ∧ r.2.1 = r'.2.1 ∧ StatesRel Q r.2.2 r'.2.2
  | _, _ => False

end Verif
