import Verif.Spec.Constants
/-!
# Specification: the constants of the condensible
-/

namespace Verif

/-- The condensible after a history: the last one set, water at import and after a
reset. -/
def condensibleOf (ops : List ConstOp) : String :=
  ops.foldl (fun x op => match op with
    | .set _ _ _ => x
    | .condensible y => y
    | .reset => "water") "water"

/-- `general` is a name that does not mention the condensible, `own` is the name of
the same quantity of the condensible `x`. -/
inductive StandsFor (x : String) : (general own : String) → Prop
  | liquid {q} : q ∈ ["density", "heat_capacity", "thermal_conductivity", "freezing_temperature"] →
      StandsFor x (q ++ "_of_liquid_phase") (q ++ "_of_liquid_" ++ x)
  | solid {q f} : q ∈ ["density", "heat_capacity", "thermal_conductivity"] → f ∈ ["ice", "snow"] →
      StandsFor x (q ++ "_of_solid_phase_as_" ++ f) (q ++ "_of_solid_" ++ x ++ "_as_" ++ f)
  | short {q f} : q ∈ ["density", "heat_capacity", "thermal_conductivity"] → f ∈ ["ice", "snow"] →
      StandsFor x (q ++ "_of_" ++ f) (q ++ "_of_solid_" ++ x ++ "_as_" ++ f)
  | vapor {q} : q ∈ ["gas_constant", "specific_enthalpy"] →
      StandsFor x (q ++ "_of_vapor_phase") (q ++ "_of_" ++ x ++ "_vapor")
  | vaporHeat : StandsFor x "heat_capacity_of_vapor_phase" ("heat_capacity_of_" ++ x ++ "_vapor_at_constant_pressure")
  | vaporization {n} : n ∈ ["latent_heat_of_vaporization", "latent_heat_of_condensation"] →
      StandsFor x n ("latent_heat_of_vaporization_of_" ++ x)
  | fusion {n} : n ∈ ["latent_heat_of_fusion", "enthalpy_of_fusion"] →
      StandsFor x n ("latent_heat_of_fusion_of_" ++ x)

end Verif
