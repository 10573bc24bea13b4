import Verif.Model.Components
import Verif.Spec.Arrays
/-!
# Specifications for components
-/

namespace Verif

/-- A quantity may be returned under its name, under the alias its own
properties give, or under the alias of the input of that name. -/
def MayReturn (inProps : PropDict) (name : String) (p : QProps) (k : String) : Prop :=
  k = name ∨ p.aliasName = some k ∨ ∃ ip, inProps.get? name = some ip ∧ ip.aliasName = some k

/-- A declared quantity is not returned under any of its names. -/
def Omitted (inProps props : PropDict) (exempt : List String) (raw : Dict NDArray) : Prop :=
  ∃ kv ∈ props, kv.1 ∉ exempt ∧ ∀ k ∈ raw.keys, ¬ MayReturn inProps kv.1 kv.2 k

/-- A returned key names no declared quantity. -/
def Undeclared (inProps props : PropDict) (raw : Dict NDArray) : Prop :=
  ∃ k ∈ raw.keys, ∀ kv ∈ props, ¬ MayReturn inProps kv.1 kv.2 k

/-- `k` is a tracer handled by a component of class `c`. -/
def IsTracer (g : Tracers) (c : Class) (k : String) : Prop :=
  c.usesTracers = true ∧ (k ∈ g.units.keys ∨ k ∈ c.prepend.map (·.1))

/-- No two entries share an alias. -/
def AliasesDistinct (props : PropDict) : Prop := (props.filterMap (·.2.aliasName)).Nodup

/-- Every entry has units and has dims of its own or from the input of that name. -/
def Described (inProps props : PropDict) : Prop :=
  ∀ kv ∈ props, kv.2.units.isSome ∧ (kv.2.dims.isSome ∨ kv.1 ∈ inProps.keys)

/-- The units of quantities that are also inputs are compatible with the input's
units passed through `f`. -/
def CompatibleWith (R : Registry) (f : String → String) (inProps props : PropDict) : Prop :=
  ∀ kv ∈ props, ∀ ip iu u, inProps.get? kv.1 = some ip → ip.units = some iu → kv.2.units = some u →
    ∃ a b, R.parse (f iu) = some a ∧ R.parse u = some b ∧ a.dim = b.dim

/-- The registry knows all unit strings that will be compared. -/
def UnitsKnown (R : Registry) (f : String → String) (inProps props : PropDict) : Prop :=
  ∀ kv ∈ props, ∀ ip iu u, inProps.get? kv.1 = some ip → ip.units = some iu → kv.2.units = some u →
    (R.parse (f iu)).isSome ∧ (R.parse u).isSome

/-- Units of a rate of change, as text: units followed by `s^-1`. -/
def rateUnits (u : String) : String := if u = "" then "s^-1" else u ++ " s^-1"

/-- The function applied to input units before comparing with the main outputs. -/
def outFactor : Kind → String → String
  | .stepper => id
  | _ => rateUnits

/-- The documented requirements on a component's property dictionaries. -/
structure ValidProps (R : Registry) (c : Class) : Prop where
  inputs : ∀ kv ∈ c.inProps, kv.2.dims.isSome ∧ kv.2.units.isSome
  inAlias : AliasesDistinct c.inProps
  diag : Described c.inProps c.diagProps
  diagAlias : AliasesDistinct c.diagProps
  diagUnits : CompatibleWith R id c.inProps c.diagProps
  out : c.kind ≠ .diagnostic → Described c.inProps c.outProps
  outAlias : c.kind ≠ .diagnostic → AliasesDistinct c.outProps
  outUnits : c.kind ≠ .diagnostic → CompatibleWith R (outFactor c.kind) c.inProps c.outProps

/-- Property dictionaries without their aliases. -/
def stripAlias (props : PropDict) : PropDict := props.mapVal fun p => { p with aliasName := none }

/-- The same component class without aliases. -/
def Class.strip (c : Class) : Class :=
  { c with inProps := stripAlias c.inProps, outProps := stripAlias c.outProps
           diagProps := stripAlias c.diagProps }

/-- The key under which a component with aliases returns what it would otherwise
return as `k`: the alias of its own properties, else that of the input. -/
def returnName (inProps props : PropDict) (k : String) : String :=
  match props.get? k with
  | none => k
  | some p => p.aliasName.getD (((inProps.get? k).bind (·.aliasName)).getD k)

/-- No key stands for two quantities of the dictionary. -/
def Unambiguous (inProps props : PropDict) : Prop :=
  ∀ kv ∈ props, ∀ kv' ∈ props, ∀ k, MayReturn inProps kv.1 kv.2 k → MayReturn inProps kv'.1 kv'.2 k →
    kv.1 = kv'.1

/-- The dictionary uses no key that is the alias of another quantity. -/
def AvoidsAliases (inProps props : PropDict) (raw : Dict NDArray) : Prop :=
  ∀ k ∈ raw.keys, ∀ kv ∈ props, MayReturn inProps kv.1 kv.2 k → k = kv.1

/-- `raw` holds under the aliases what `raw'` holds under the names. -/
def SameInputs (inProps : PropDict) (raw raw' : RawState) : Prop :=
  raw.time = raw'.time ∧ raw.arrays.get? "tracers" = raw'.arrays.get? "tracers" ∧
  ∀ kv ∈ inProps, raw.arrays.get? (outName kv) = raw'.arrays.get? kv.1

/-- A dictionary with its keys renamed. -/
def renameKeys {α : Type} (ρ : String → String) (d : Dict α) : Dict α := d.map fun kv => (ρ kv.1, kv.2)

end Verif
