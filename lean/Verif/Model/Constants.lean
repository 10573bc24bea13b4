import Verif.Model.DataArray
/-!
# Constants (`sympl/_core/constants.py`)

The module's dictionaries are objects: `constants` and `constant_aliases` refer to
dictionary objects, `default_constants` and `default_constant_aliases` are the objects 0.

Simplifications: the value of a constant is a number, not an array; decimal literals are
their exact values; conversion of a number to text is a parameter; the contents of the
DataArrays themselves are never changed.  `dict.update` copies the stored items of a
ConstantDict (CPython merges dict subclasses without their `keys` method).
-/

namespace Verif

/-- A constant: value and units. -/
structure Const where
  value : Rat
  units : String
  deriving DecidableEq

/-- The DataArray of a constant. -/
def Const.da (c : Const) : DataArray := ⟨[], ⟨[], fun _ => c.value⟩, [("units", c.units)]⟩

/-- `default_constant_aliases` (constants.py:84-94) -/
def defaultAliases : Dict String :=
  [("latent_heat_of_condensation", "latent_heat_of_vaporization"),
   ("enthalpy_of_fusion", "latent_heat_of_fusion"),
   ("stellar_irradiance", "solar_constant"),
   ("heat_capacity_of_ice", "heat_capacity_of_solid_phase_as_ice"),
   ("heat_capacity_of_snow", "heat_capacity_of_solid_phase_as_snow"),
   ("thermal_conductivity_of_ice", "thermal_conductivity_of_solid_phase_as_ice"),
   ("thermal_conductivity_of_snow", "thermal_conductivity_of_solid_phase_as_snow"),
   ("density_of_ice", "density_of_solid_phase_as_ice"),
   ("density_of_snow", "density_of_solid_phase_as_snow")]

/-- `default_constants` (constants.py:96-129) -/
def defaultConstants : Dict Const :=
  [("stefan_boltzmann_constant", ⟨5670367 / 100000000000000, "W m^-2 K^-4"⟩),
   ("gravitational_acceleration", ⟨196133 / 20000, "m s^-2"⟩),
   ("heat_capacity_of_dry_air_at_constant_pressure", ⟨25116 / 25, "J kg^-1 K^-1"⟩),
   ("heat_capacity_of_water_vapor_at_constant_pressure", ⟨1846, "J kg^-1 K^-1"⟩),
   ("specific_enthalpy_of_water_vapor", ⟨2500, "J kg^-1"⟩),
   ("heat_capacity_of_liquid_water", ⟨8371 / 2, "J kg^-1 K^-1"⟩),
   ("freezing_temperature_of_liquid_water", ⟨273, "K"⟩),
   ("thermal_conductivity_of_liquid_water", ⟨57 / 100, "W m^-1 K^-1"⟩),
   ("heat_capacity_of_solid_water_as_ice", ⟨2108, "J kg^-1 K^-1"⟩),
   ("thermal_conductivity_of_solid_water_as_ice", ⟨111 / 50, "W m^-1 K^-1"⟩),
   ("heat_capacity_of_solid_water_as_snow", ⟨2108, "J kg^-1 K^-1"⟩),
   ("thermal_conductivity_of_solid_water_as_snow", ⟨1 / 5, "W m^-1 K^-1"⟩),
   ("reference_air_pressure", ⟨101320, "Pa"⟩),
   ("reference_air_temperature", ⟨300, "degK"⟩),
   ("thermal_conductivity_of_dry_air", ⟨13 / 500, "W m^-1 K^-1"⟩),
   ("gas_constant_of_dry_air", ⟨287, "J kg^-1 K^-1"⟩),
   ("gas_constant_of_water_vapor", ⟨923 / 2, "J kg^-1 K^-1"⟩),
   ("planetary_rotation_rate", ⟨1823 / 25000000, "s^-1"⟩),
   ("planetary_radius", ⟨6371000, "m"⟩),
   ("latent_heat_of_vaporization_of_water", ⟨2500000, "J kg^-1"⟩),
   ("latent_heat_of_fusion_of_water", ⟨333550, "J kg^-1"⟩),
   ("density_of_liquid_water", ⟨1000, "kg m^-3"⟩),
   ("density_of_solid_water_as_ice", ⟨9167 / 10, "kg m^-3"⟩),
   ("density_of_solid_water_as_snow", ⟨100, "kg m^-3"⟩),
   ("solar_constant", ⟨1367, "W m^-2"⟩),
   ("planck_constant", ⟨165651751 / 250000000000000000000000000000000000000000, "J s"⟩),
   ("speed_of_light", ⟨299792458, "m s^-1"⟩),
   ("seconds_per_day", ⟨86400, "dimensionless"⟩),
   ("avogadro_constant", ⟨602214085700000000000000, "mole^-1"⟩),
   ("boltzmann_constant", ⟨34516213 / 2500000000000000000000000000000, "J K^-1"⟩),
   ("loschmidt_constant", ⟨26516467000000000000000000, "m^-3"⟩),
   ("universal_gas_constant", ⟨41572299 / 5000000, "J mole^-1 K^-1"⟩)]

/-- `constant_names_by_category` (constants.py:131-209), with the category's
`.title()`. -/
def constantCategories : Dict (List String) :=
  [("Planetary", ["gravitational_acceleration", "planetary_radius", "planetary_rotation_rate", "seconds_per_day"]),
   ("Physical", ["stefan_boltzmann_constant", "avogadro_constant", "speed_of_light", "boltzmann_constant", "loschmidt_constant", "universal_gas_constant", "planck_constant"]),
   ("Condensible", ["density_of_liquid_phase", "heat_capacity_of_liquid_phase", "heat_capacity_of_vapor_phase", "specific_enthalpy_of_vapor_phase", "gas_constant_of_vapor_phase", "latent_heat_of_condensation", "latent_heat_of_fusion", "density_of_solid_phase_as_ice", "density_of_solid_phase_as_snow", "heat_capacity_of_solid_phase_as_ice", "heat_capacity_of_solid_phase_as_snow", "thermal_conductivity_of_solid_phase_as_ice", "thermal_conductivity_of_solid_phase_as_snow", "thermal_conductivity_of_liquid_phase", "freezing_temperature_of_liquid_phase", "enthalpy_of_fusion", "latent_heat_of_vaporization"]),
   ("Atmospheric", ["heat_capacity_of_dry_air_at_constant_pressure", "gas_constant_of_dry_air", "thermal_conductivity_of_dry_air", "reference_air_pressure", "reference_air_temperature"]),
   ("Stellar", ["stellar_irradiance", "solar_constant"]),
   ("Oceanographic", []),
   ("Chemical", ["heat_capacity_of_water_vapor_at_constant_pressure", "density_of_liquid_water", "gas_constant_of_water_vapor", "latent_heat_of_vaporization_of_water", "heat_capacity_of_liquid_water", "latent_heat_of_fusion_of_water", "heat_capacity_of_solid_water_as_ice", "heat_capacity_of_solid_water_as_snow", "thermal_conductivity_of_solid_water_as_ice", "thermal_conductivity_of_solid_water_as_snow", "thermal_conductivity_of_liquid_water", "density_of_solid_water_as_ice", "density_of_solid_water_as_snow", "freezing_temperature_of_liquid_water", "specific_enthalpy_of_water_vapor", "density_of_snow", "heat_capacity_of_snow", "heat_capacity_of_ice", "density_of_ice", "thermal_conductivity_of_ice", "thermal_conductivity_of_snow"])]

/-- The text before and after the name in each entry of `get_condensible_map`
(constants.py:212-229). -/
def condensibleTable : Dict (String × String) :=
  [("gas_constant_of_vapor_phase", ("gas_constant_of_", "_vapor")),
   ("heat_capacity_of_vapor_phase", ("heat_capacity_of_", "_vapor_at_constant_pressure")),
   ("specific_enthalpy_of_vapor_phase", ("specific_enthalpy_of_", "_vapor")),
   ("density_of_liquid_phase", ("density_of_liquid_", "")),
   ("heat_capacity_of_liquid_phase", ("heat_capacity_of_liquid_", "")),
   ("latent_heat_of_vaporization", ("latent_heat_of_vaporization_of_", "")),
   ("freezing_temperature_of_liquid_phase", ("freezing_temperature_of_liquid_", "")),
   ("thermal_conductivity_of_liquid_phase", ("thermal_conductivity_of_liquid_", "")),
   ("latent_heat_of_fusion", ("latent_heat_of_fusion_of_", "")),
   ("density_of_solid_phase_as_ice", ("density_of_solid_", "_as_ice")),
   ("density_of_solid_phase_as_snow", ("density_of_solid_", "_as_snow")),
   ("heat_capacity_of_solid_phase_as_ice", ("heat_capacity_of_solid_", "_as_ice")),
   ("heat_capacity_of_solid_phase_as_snow", ("heat_capacity_of_solid_", "_as_snow")),
   ("thermal_conductivity_of_solid_phase_as_ice", ("thermal_conductivity_of_solid_", "_as_ice")),
   ("thermal_conductivity_of_solid_phase_as_snow", ("thermal_conductivity_of_solid_", "_as_snow"))]

/-- `get_condensible_map` (constants.py:212-229) -/
def condensibleMap (x : String) : Dict String := Dict.mapVal (fun ps => ps.1 ++ x ++ ps.2) condensibleTable

/-- The module's memory: dictionary objects and the two global variables. -/
structure CMem where
  consts : List (Dict Const)
  aliases : List (Dict String)
  constants : Nat
  constantAliases : Nat

namespace CMem

/-- The dictionary `constants`. -/
def cd (m : CMem) : Dict Const := m.consts.getD m.constants []

/-- The dictionary `constant_aliases`. -/
def ad (m : CMem) : Dict String := m.aliases.getD m.constantAliases []

end CMem

/-- The loop of `get_alias` (constants.py:233-236): at most `n` more steps. -/
def aliasLoop (aliases : Dict String) : Nat → String → String
  | 0, name => name
  | n + 1, name =>
    match aliases.get? name with
    | none => name
    | some next => aliasLoop aliases n next

/-- `get_alias` (constants.py:232-241) -/
def getAlias (aliases : Dict String) (name : String) : Except Err String :=
  let r := aliasLoop aliases 100 name
  if r ∈ Dict.keys aliases then .error .runtimeError else .ok r

/-- `ConstantDict.__getitem__` (constants.py:74-78) -/
def constItem (d : Dict Const) (aliases : Dict String) (name : String) : Except Err Const :=
  if name ∈ Dict.keys aliases then getAlias aliases name >>= fun n => d.get n else d.get name

/-- `ConstantDict.__setitem__` (constants.py:68-72) -/
def constSet (d : Dict Const) (aliases : Dict String) (name : String) (c : Const) : Except Err (Dict Const) :=
  if name ∈ Dict.keys aliases then getAlias aliases name >>= fun n => .ok (d.set n c) else .ok (d.set name c)

/-- `set_constant` (constants.py:244-260); the memory is returned also on an
exception. -/
def setConstant (R : Registry) (m : CMem) (name : String) (v : Rat) (u : String) : CMem × Except Err Unit :=
  if R.isValidUnit u then
    match getAlias m.ad name >>= fun n => constSet m.cd m.ad n ⟨v, u⟩ with
    | .error e => (m, .error e)
    | .ok d => ({ m with consts := m.consts.set m.constants d }, .ok ())
  else (m, .error .valueError)

/-- `get_constant` (constants.py:263-279) -/
def getConstant (R : Registry) (m : CMem) (name u : String) : Except Err Rat :=
  getAlias m.ad name >>= fun n => constItem m.cd m.ad n >>= fun c =>
  c.da.toUnits R u >>= fun a => .ok (a.arr.get [])

/-- `set_condensible_name` (constants.py:293-294) -/
def setCondensible (m : CMem) (x : String) : CMem :=
  { m with aliases := m.aliases.set m.constantAliases (m.ad.update (condensibleMap x)) }

/-- `reset_constants` (constants.py:297-309): two new dictionary objects. -/
def resetConstants (m : CMem) : CMem where
  consts := m.consts ++ [Dict.update [] (m.consts.getD 0 [])]
  aliases := m.aliases ++ [Dict.update (Dict.update [] (m.aliases.getD 0 [])) (condensibleMap "water")]
  constants := m.consts.length
  constantAliases := m.aliases.length

/-- The module after import (constants.py:81-129, 312). -/
def importConstants : CMem := resetConstants ⟨[defaultConstants], [defaultAliases], 0, 0⟩

/-- One pass of the loop of `_proxy_dict`: `new_dict` (constants.py:47-50). -/
def proxyNew (aliases : Dict String) (d : Dict Const) : Dict Const :=
  aliases.foldl (fun new kv =>
    match d.get? kv.2 with
    | some c => if kv.1 ∈ Dict.keys d then new else new.set kv.1 c
    | none => new) []

/-- The loop of `_proxy_dict` (constants.py:45-54), whose counter is never advanced:
the result, or `none` if it is still running after `n` passes. -/
def proxyLoop (aliases : Dict String) : Nat → Dict Const → Option (Dict Const)
  | 0, _ => none
  | n + 1, d =>
    let new := proxyNew aliases d
    if new = [] then some d else proxyLoop aliases n (d.update new)

/-- `_proxy_dict` (constants.py:37-57), which `keys`, `values` and `items` (59-66) read.  The loop ends after at most one pass more
than there are aliases (`proxy_terminates`), always with an empty `new_dict`. -/
def proxyDict (d : Dict Const) (aliases : Dict String) : Dict Const :=
  (proxyLoop aliases (aliases.length + 1) d).getD d

/-- The line of one constant (constants.py:18-21, 29-31). -/
def constLine (fmt : Rat → String) (d : Dict Const) (aliases : Dict String) (strip : String → String)
    (name : String) : Except Err String :=
  constItem d aliases name >>= fun c => .ok ("\t" ++ name ++ ": " ++ fmt c.value ++ " " ++ strip c.units ++ "\n")

/-- One category (constants.py:14-24). -/
def categoryText (fmt : Rat → String) (d : Dict Const) (aliases : Dict String) (cat : String × List String) :
    Except Err String :=
  cat.2.mapM (constLine fmt d aliases (fun u => u.replace "dimensionless" "")) >>= fun lines =>
  .ok ((if cat.2 = [] then "" else cat.1 ++ "\n") ++ String.join lines ++ "\n")

/-- `ConstantDict._repr` and `get_constants_string` (constants.py:10-35, 282-290);
`fmt` is the text of a number. -/
def constantsString (fmt : Rat → String) (m : CMem) : Except Err String :=
  constantCategories.mapM (categoryText fmt m.cd m.ad) >>= fun texts =>
  let printed := constantCategories.flatMap (·.2)
  let rest := (Dict.keys (proxyDict m.cd m.ad)).filter (· ∉ printed)
  if rest = [] then .ok (String.join texts)
  else rest.mapM (constLine fmt m.cd m.ad id) >>= fun lines =>
    .ok (String.join texts ++ "User Defined\n" ++ String.join lines ++ "\n")

end Verif
