import Verif.Spec.Layout
import Verif.Model.Components
/-!
# Specification of C97: columns on different grids

`H` are the dimensions across which columns are laid out.  A column of the second state with
coordinates `ix` is the column of the first state with coordinates `φ ix`.  So `φ` may select
columns, repeat them, mirror or shift a grid, or spread a list of columns over a grid with
several dimensions.
-/

namespace Verif

/-- The columns along `W'` (lengths `L'`) come from columns along `W` (lengths `L`). -/
structure Regrid (H W W' : List String) (L L' : String → Nat) (φ : (String → Nat) → String → Nat) : Prop where
  inside : ∀ ix, (∀ d ∈ W', ix d < L' d) → ∀ d ∈ W, φ ix d < L d
  only : ∀ ix jx, (∀ d ∈ W', ix d = jx d) → ∀ d ∈ W, φ ix d = φ jx d
  rest : ∀ ix d, d ∉ H → φ ix d = ix d

/-- The same quantity on the second grid. -/
structure Moved (H : List String) (φ : (String → Nat) → String → Nat) (a b : DataArray) : Prop where
  attrs : a.attrs = b.attrs
  named : ∀ d, d ∉ H → (d ∈ a.dims ↔ d ∈ b.dims)
  len : ∀ d ∈ a.dims, d ∉ H → a.len d = b.len d
  val : ∀ ix, (∀ d ∈ b.dims, ix d < b.len d) → b.at' ix = a.at' (φ ix)

def MovedVal (H : List String) (φ : (String → Nat) → String → Nat) : Option Val → Option Val → Prop
  | none, none => True
  | some (.time t), some (.time t') => t = t'
  | some (.da a), some (.da b) => Moved H φ a b
  | _, _ => False

/-- Raw arrays requested with `dims`: that of the second has, at position `p` along the
wildcard, what the first has at position `ρ p`. -/
structure Picked (dims : List String) (L : String → Nat) (N N' : Nat) (ρ : Nat → Nat) (a a' : NDArray) : Prop where
  shape : a.shape = dims.map fun d => if d = "*" then N else L d
  shape' : a'.shape = dims.map fun d => if d = "*" then N' else L d
  val : ∀ (p : Nat) (ix : String → Nat), ("*" ∈ dims → p < N') → (∀ d ∈ dims, d ≠ "*" → ix d < L d) →
    a'.get (dims.map fun d => if d = "*" then p else ix d) = a.get (dims.map fun d => if d = "*" then ρ p else ix d)

def PickedInputs (props : PropDict) (L : String → Nat) (N N' : Nat) (ρ : Nat → Nat) (raw raw' : Dict NDArray) : Prop :=
  raw.keys = raw'.keys ∧
  ∀ kv ∈ props, ∀ dims, kv.2.dims = some dims → ∃ a a', raw.get? (outName kv) = some a ∧
    raw'.get? (outName kv) = some a' ∧ Picked dims L N N' ρ a a'

/-- Outputs likewise.  `name kv` is the key under which `array_call` returns an output;
dimensions that are not the inputs' may have any length. -/
def PickedOutputs (inP outP : PropDict) (ign : List String) (name : String → String) (L : String → Nat) (N N' : Nat)
    (ρ : Nat → Nat) (raw raw' : Dict NDArray) : Prop :=
  raw.keys = raw'.keys ∧
  ∃ M : String → Nat, (∀ kv ∈ inP, ∀ ds, kv.2.dims = some ds → ∀ d ∈ ds, d ≠ "*" → M d = L d) ∧
    ∀ kv ∈ outP, kv.1 ∉ ign → ∀ dims, effDims inP kv.1 kv.2 = some dims →
      ∃ a a', raw.get? (name kv.1) = some a ∧ raw'.get? (name kv.1) = some a' ∧ Picked dims M N N' ρ a a'

/-- An `array_call` returning two dictionaries, of `P1` and `P2`, that works column by
column: whichever columns it is given, in whichever order and however often, it returns for
each of them the same (and does the same to the world, or raises the same exception). -/
def ColumnWise {σ : Type} (inP P1 P2 : PropDict) (ign1 ign2 : List String)
    (ac : σ → RawState → σ × Except Err (Dict NDArray × Dict NDArray)) : Prop :=
  ∀ (L : String → Nat) (N N' : Nat) (ρ : Nat → Nat) s raw raw', (∀ p < N', ρ p < N) → raw.time = raw'.time →
    PickedInputs inP L N N' ρ raw.arrays raw'.arrays →
    (ac s raw).1 = (ac s raw').1 ∧ Exc.Rel (fun r r' =>
      PickedOutputs inP P1 ign1 (fun n => getAliasOrName n P1 inP) L N N' ρ r.1 r'.1 ∧
      PickedOutputs inP P2 ign2 (fun n => getAliasOrName n P2 inP) L N N' ρ r.2 r'.2) (ac s raw).2 (ac s raw').2

/-- Declared dims that are not laid out across columns. -/
def AvoidDims (H : List String) (inP outP : PropDict) : Prop :=
  ∀ kv ∈ outP, ∀ dims, effDims inP kv.1 kv.2 = some dims → ∀ d ∈ dims, d ∉ H

/-- A state, the same on another grid, and what ties the grids together for a component
with the inputs `props`. -/
structure SameColumns (H : List String) (φ : (String → Nat) → String → Nat) (L L' : String → Nat) (props : PropDict)
    (s s' : State) : Prop where
  moved : ∀ n, MovedVal H φ (Dict.get? s n) (Dict.get? s' n)
  wf : s.WF
  wf' : s'.WF
  star : s.StarFree
  star' : s'.StarFree
  time : ∀ a, Dict.get? s "time" ≠ some (.da a)
  nodup : ∀ kv ∈ props, ∀ ds, kv.2.dims = some ds → ds.Nodup
  named : ∀ kv ∈ props, ∀ ds, kv.2.dims = some ds → ∀ d ∈ ds, d ∉ H
  flat : ∀ q ∈ requested s props, "*" ∉ q.2 → ∀ d ∈ q.1.dims, d ∉ H
  flat' : ∀ q ∈ requested s' props, "*" ∉ q.2 → ∀ d ∈ q.1.dims, d ∉ H
  wild : ∀ d ∈ wildSpec (requested s props), d ∈ H
  wild' : ∀ d ∈ wildSpec (requested s' props), d ∈ H
  len : ∀ q ∈ requested s props, ∀ d ∈ q.1.dims, q.1.len d = L d
  len' : ∀ q ∈ requested s' props, ∀ d ∈ q.1.dims, q.1.len d = L' d
  regrid : (∀ kv ∈ props, ∃ a, Dict.get? s kv.1 = some (.da a)) →
    Regrid H (wildSpec (requested s props)) (wildSpec (requested s' props)) L L' φ

end Verif
