import Verif.Spec.SteppersOver
import Mathlib.Algebra.BigOperators.Group.Finset.Basic
import Mathlib.Data.Fintype.Basic
import Mathlib.Algebra.Order.Field.Rat
/-!
# Ensembles and their weighted means (C121)

An ensemble with members `ι` is a state whose quantities have one array per member.
-/

namespace Verif

variable {ι : Type}

/-- The dictionary of member `i`. -/
def memberDict (i : ι) (x : Dict (ι → DataArray)) : Dict DataArray := Dict.mapVal (fun v => v i) x

/-- An entry of the state of member `i`. -/
def memberVal (i : ι) : Entry (ι → DataArray) → Val
  | .da v => .da (v i)
  | .time t => .time t

/-- The state of member `i`. -/
def memberState (i : ι) (x : EState (ι → DataArray)) : State := Dict.mapVal (memberVal i) x

/-- `a` is the mean of the arrays `v` of the members, with weights `w`: all have the same axes,
lengths and attributes, and every element is the weighted sum of the elements of the members. -/
structure MeanOf [Fintype ι] (w : ι → Rat) (v : ι → DataArray) (a : DataArray) : Prop where
  wf : a.WF
  dims : ∀ i, (v i).dims = a.dims
  shape : ∀ i, (v i).arr.shape = a.arr.shape
  attrs : ∀ i, (v i).attrs = a.attrs
  val : ∀ ix : String → Nat, (∀ d ∈ a.dims, ix d < a.len d) → a.at' ix = ∑ i, w i * (v i).at' ix

/-- `z` is the mean of the states of the ensemble `x`. -/
abbrev MeanState [Fintype ι] (w : ι → Rat) (x : EState (ι → DataArray)) (z : State) : Prop :=
  StateRel (fun _ => MeanOf w) x z

/-- Components that turn means into means: on every ensemble they return for the mean state the
mean of the tendencies they return for the members, or raise the same exception for all of them; what they
remember does not depend on the member.  `W` says what is known of their diagnostics. -/
def KeepsMeans [Fintype ι] {σ : Type} (w : ι → Rat) (W : (ι → DataArray) → DataArray → Prop) (p : Prog σ) : Prop :=
  ∀ (s : σ) (x : EState (ι → DataArray)) (z : State) (dt : Int), MeanState w x z →
    (∀ i, (p s (memberState i x) dt).1 = (p s z dt).1) ∧
    ((∃ e, (∀ i, (p s (memberState i x) dt).2 = .error e) ∧ (p s z dt).2 = .error e) ∨
     ∃ T D t d, (∀ i, (p s (memberState i x) dt).2 = .ok (memberDict i T, memberDict i D)) ∧
       (p s z dt).2 = .ok (t, d) ∧ KeyRel (fun _ => MeanOf w) T t ∧ DictRel W D d)

/-- The AdamsBashforth or SSPRungeKutta of member `i`. -/
def memberAB (i : ι) (x : ABOver (ι → DataArray)) : AB :=
  { order := x.order, timestep := x.timestep, hist := x.hist.map (memberDict i) }

/-- The Leapfrog of member `i`. -/
def memberLF (i : ι) (x : LFOver (ι → DataArray)) : LF :=
  { strength := x.strength, alpha := x.alpha, timestep := x.timestep, old := x.old.map (memberState i) }

/-- What a call returns for member `i`. -/
def memberOut (i : ι) : Except Err (Dict (ι → DataArray) × EState (ι → DataArray)) → Except Err (Dict DataArray × State)
  | .ok (d, x) => .ok (memberDict i d, memberState i x)
  | .error e => .error e

/-- A call for the mean state gives the mean of what the calls for the members give: the stepper (`mem`
is that of a member, `M` relates the mean), the components' world, the state passed in, the diagnostics and
the new state, or the exception. -/
def CallsMean [Fintype ι] {τE τ σ : Type} (w : ι → Rat) (W : (ι → DataArray) → DataArray → Prop) (mem : ι → τE → τ)
    (M : τE → τ → Prop) (members : ι → τ × σ × State × Except Err (Dict DataArray × State))
    (mean : τ × σ × State × Except Err (Dict DataArray × State)) : Prop :=
  ∃ h x out, (∀ i, members i = (mem i h, mean.2.1, memberState i x, memberOut i out)) ∧
    M h mean.1 ∧ MeanState w x mean.2.2.1 ∧ StepRel (fun _ => MeanOf w) W out mean.2.2.2

/-- The run of the mean state ends with the mean of the states that the runs of the members end
with, or all of them end with an exception. -/
def RunsMean [Fintype ι] {τE τ σ : Type} (w : ι → Rat) (mem : ι → τE → τ) (M : τE → τ → Prop)
    (members : ι → Option (τ × σ × State)) (mean : Option (τ × σ × State)) : Prop :=
  ((∀ i, members i = none) ∧ mean = none) ∨
  ∃ h s x y z, (∀ i, members i = some (mem i h, s, memberState i x)) ∧ mean = some (y, s, z) ∧ M h y ∧ MeanState w x z

end Verif
