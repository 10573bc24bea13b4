import Verif.Props.Constants
import Verif.Spec.Condensible
/-!
# C70: the constants of the condensible
-/

namespace Verif

/-- The aliases after a history are those of the condensible. -/
theorem history_table (R : Registry) (ops : List ConstOp) :
    ConstInv (afterHistory R ops) (condensibleOf ops) := by
  unfold afterHistory condensibleOf
  have gen : ∀ (ops : List ConstOp) (m : CMem) (x : String), ConstInv m x →
      ConstInv (ops.foldl (ConstOp.run R) m) (ops.foldl (fun x op => match op with
        | .set _ _ _ => x
        | .condensible y => y
        | .reset => "water") x) := by
    intro ops
    induction ops with
    | nil => exact fun m x h => h
    | cons op ops ih =>
      intro m x h
      rw [List.foldl_cons, List.foldl_cons]
      refine ih _ _ ?_
      cases op with
      | set n v u =>
        obtain ⟨y, hy, hy'⟩ := op_inv R h (.set n v u)
        have hx : (ConstOp.run R m (.set n v u)).ad = m.ad := by
          obtain ⟨-, h2, h3⟩ := setConstant_spec R m n v u
          show (setConstant R m n v u).1.ad = m.ad
          cases hr : (setConstant R m n v u).2 with
          | error e => rw [h2 e hr]
          | ok _ =>
            obtain ⟨r, -, he⟩ := h3 hr
            rw [he]
            rfl
        exact ⟨hy.defaults, hy.defaultAl, hy.constants, hy.constantAliases, hx.trans h.table, hy.disjoint,
          hy.nodup, hy.defined⟩
      | condensible y =>
        obtain ⟨z, hz, -⟩ := op_inv R h (.condensible y)
        refine ⟨hz.defaults, hz.defaultAl, hz.constants, hz.constantAliases, ?_, hz.disjoint, hz.nodup, hz.defined⟩
        show (m.aliases.set m.constantAliases _).getD m.constantAliases [] = _
        rw [getD_set_self h.constantAliases.2, h.table]
        exact aliasTable_update x y
      | reset =>
        exact (reset_inv h.defaults h.defaultAl (by have := h.constants; omega)
          (by have := h.constantAliases; omega)).1
  exact gen ops _ _ import_inv

theorem condensible_entry {g p s : String} (x : String) (hd : Dict.get? defaultAliases g = none)
    (h : Dict.get? condensibleTable g = some (p, s)) : (aliasTable x).get? g = some (p ++ x ++ s) := by
  unfold aliasTable condensibleMap
  rw [Dict.get?_append, hd, Dict.get?_mapVal, h]
  rfl

theorem resolves_direct {g p s x : String} (hx : x ≠ "phase") (hd : Dict.get? defaultAliases g = none)
    (h : Dict.get? condensibleTable g = some (p, s)) : ResolvesIn (aliasTable x) 1 g (p ++ x ++ s) := by
  refine .step (condensible_entry x hd h) (.here ?_)
  rw [aliasTable_keys]
  exact fun hk => hx (condensible_target (List.mem_map.2 ⟨_, Dict.mem_of_get? h, rfl⟩) hk)

theorem resolves_short {g g' p s x : String} (hx : x ≠ "phase") (h0 : Dict.get? defaultAliases g = some g')
    (hd : Dict.get? defaultAliases g' = none)
    (h : Dict.get? condensibleTable g' = some (p, s)) : ResolvesIn (aliasTable x) 2 g (p ++ x ++ s) := by
  refine .step ?_ (resolves_direct hx hd h)
  unfold aliasTable
  rw [Dict.get?_append, h0]
  rfl

/-- A general name resolves to the name of the condensible's constant. -/
theorem standsFor_resolves {x g s : String} (hx : x ≠ "phase") (h : StandsFor x g s) :
    Resolves (aliasTable x) g s := by
  cases h with
  | @liquid q hq =>
    have k1 : ∀ q ∈ ["density", "heat_capacity", "thermal_conductivity", "freezing_temperature"],
        Dict.get? defaultAliases (q ++ "_of_liquid_phase") = none ∧
        Dict.get? condensibleTable (q ++ "_of_liquid_phase") = some (q ++ "_of_liquid_", "") := by decide +kernel
    have := resolves_direct hx (k1 q hq).1 (k1 q hq).2
    rw [String.append_empty] at this
    exact ⟨_, this⟩
  | @solid q f hq hf =>
    have k1 : ∀ q ∈ ["density", "heat_capacity", "thermal_conductivity"], ∀ f ∈ ["ice", "snow"],
        Dict.get? defaultAliases (q ++ "_of_solid_phase_as_" ++ f) = none ∧
        Dict.get? condensibleTable (q ++ "_of_solid_phase_as_" ++ f) = some (q ++ "_of_solid_", "_as_" ++ f) := by
      decide +kernel
    have := resolves_direct hx (k1 q hq f hf).1 (k1 q hq f hf).2
    rw [← String.append_assoc] at this
    exact ⟨_, this⟩
  | @short q f hq hf =>
    have k1 : ∀ q ∈ ["density", "heat_capacity", "thermal_conductivity"], ∀ f ∈ ["ice", "snow"],
        Dict.get? defaultAliases (q ++ "_of_" ++ f) = some (q ++ "_of_solid_phase_as_" ++ f) ∧
        Dict.get? defaultAliases (q ++ "_of_solid_phase_as_" ++ f) = none ∧
        Dict.get? condensibleTable (q ++ "_of_solid_phase_as_" ++ f) = some (q ++ "_of_solid_", "_as_" ++ f) := by
      decide +kernel
    have := resolves_short hx (k1 q hq f hf).1 (k1 q hq f hf).2.1 (k1 q hq f hf).2.2
    rw [← String.append_assoc] at this
    exact ⟨_, this⟩
  | @vapor q hq =>
    have k1 : ∀ q ∈ ["gas_constant", "specific_enthalpy"],
        Dict.get? defaultAliases (q ++ "_of_vapor_phase") = none ∧
        Dict.get? condensibleTable (q ++ "_of_vapor_phase") = some (q ++ "_of_", "_vapor") := by decide +kernel
    exact ⟨_, resolves_direct hx (k1 q hq).1 (k1 q hq).2⟩
  | vaporHeat => exact ⟨_, resolves_direct hx (by decide +kernel) (by decide +kernel)⟩
  | vaporization hn =>
    simp only [List.mem_cons, List.not_mem_nil, or_false] at hn
    rw [← String.append_empty (s := "latent_heat_of_vaporization_of_" ++ x)]
    rcases hn with rfl | rfl
    · exact ⟨_, resolves_direct hx (by decide +kernel) (by decide +kernel)⟩
    · exact ⟨_, resolves_short (g' := "latent_heat_of_vaporization") hx (by decide +kernel) (by decide +kernel)
        (by decide +kernel)⟩
  | fusion hn =>
    simp only [List.mem_cons, List.not_mem_nil, or_false] at hn
    rw [← String.append_empty (s := "latent_heat_of_fusion_of_" ++ x)]
    rcases hn with rfl | rfl
    · exact ⟨_, resolves_direct hx (by decide +kernel) (by decide +kernel)⟩
    · exact ⟨_, resolves_short (g' := "latent_heat_of_fusion") hx (by decide +kernel) (by decide +kernel)
        (by decide +kernel)⟩

/-- Every alias but `stellar_irradiance` is a general name. -/
theorem alias_standsFor (x : String) {n : String} (h : n ∈ Dict.keys (aliasTable x)) :
    n = "stellar_irradiance" ∨ ∃ s, StandsFor x n s := by
  have key : ∀ n ∈ Dict.keys (aliasTable ""), n = "stellar_irradiance" ∨
      (∃ q ∈ ["density", "heat_capacity", "thermal_conductivity", "freezing_temperature"], n = q ++ "_of_liquid_phase") ∨
      (∃ q ∈ ["density", "heat_capacity", "thermal_conductivity"], ∃ f ∈ ["ice", "snow"],
        n = q ++ "_of_solid_phase_as_" ++ f) ∨
      (∃ q ∈ ["density", "heat_capacity", "thermal_conductivity"], ∃ f ∈ ["ice", "snow"], n = q ++ "_of_" ++ f) ∨
      (∃ q ∈ ["gas_constant", "specific_enthalpy"], n = q ++ "_of_vapor_phase") ∨
      n = "heat_capacity_of_vapor_phase" ∨
      n ∈ ["latent_heat_of_vaporization", "latent_heat_of_condensation"] ∨
      n ∈ ["latent_heat_of_fusion", "enthalpy_of_fusion"] := by decide +kernel
  rw [aliasTable_keys] at h
  rcases key n h with h | ⟨q, hq, rfl⟩ | ⟨q, hq, f, hf, rfl⟩ | ⟨q, hq, f, hf, rfl⟩ | ⟨q, hq, rfl⟩ | rfl | h | h
  · exact .inl h
  · exact .inr ⟨_, .liquid hq⟩
  · exact .inr ⟨_, .solid hq hf⟩
  · exact .inr ⟨_, .short hq hf⟩
  · exact .inr ⟨_, .vapor hq⟩
  · exact .inr ⟨_, .vaporHeat⟩
  · exact .inr ⟨_, .vaporization h⟩
  · exact .inr ⟨_, .fusion h⟩

/-- A name that is not general resolves in the same way for every condensible. -/
theorem resolves_of_not_general {n : String} (hn : ∀ x s, ¬ StandsFor x n s) (x : String) :
    Resolves (aliasTable x) n (if n = "stellar_irradiance" then "solar_constant" else n) := by
  split
  · subst n
    refine ⟨1, .step (n' := "solar_constant") ?_ (.here ?_)⟩
    · unfold aliasTable
      rw [Dict.get?_append]
      have : Dict.get? defaultAliases "stellar_irradiance" = some "solar_constant" := by decide +kernel
      rw [this]
      rfl
    · rw [aliasTable_keys]
      decide +kernel
  · rename_i hs
    refine ⟨0, .here fun hk => ?_⟩
    rcases alias_standsFor x hk with h | ⟨s, h⟩
    · exact hs h
    · exact hn x s h

/-- **C70.**  After any history, if the condensible is not called `phase`: reading or
setting a constant by its general name is reading or setting the constant of the
condensible (the one last set, water after a reset), and that constant's own name is
not redirected. -/
theorem general_names (R : Registry) (ops : List ConstOp) (hx : condensibleOf ops ≠ "phase") (g own : String)
    (h : StandsFor (condensibleOf ops) g own) :
    Resolves (afterHistory R ops).ad own own ∧
    (∀ u, getConstant R (afterHistory R ops) g u = getConstant R (afterHistory R ops) own u) ∧
    ∀ v u, setConstant R (afterHistory R ops) g v u = setConstant R (afterHistory R ops) own v u := by
  have hi := history_table R ops
  have hlen : (afterHistory R ops).ad.length ≤ 100 := by rw [hi.table, aliasTable_length]; omega
  have hg : Resolves (afterHistory R ops).ad g own := by rw [hi.table]; exact standsFor_resolves hx h
  have ho : Resolves (afterHistory R ops).ad own own := by
    obtain ⟨k, hk⟩ := hg
    exact ⟨0, .here (resolvesIn_not_alias hk)⟩
  refine ⟨ho, fun u => ?_, fun v u => ?_⟩
  · unfold getConstant
    rw [(get_alias_small_table _ hlen g own).2 hg, (get_alias_small_table _ hlen own own).2 ho]
  · unfold setConstant
    rw [(get_alias_small_table _ hlen g own).2 hg, (get_alias_small_table _ hlen own own).2 ho]

/-- **C70.**  `set_condensible_name` changes no constant but those read by a general
name: every other name gives the same value, or the same exception, before and after. -/
theorem condensible_changes_only (R : Registry) (ops : List ConstOp) (x n : String)
    (hn : ∀ x s, ¬ StandsFor x n s) (u : String) :
    getConstant R (afterHistory R (ops ++ [.condensible x])) n u = getConstant R (afterHistory R ops) n u := by
  have hi := history_table R ops
  have hj := history_table R (ops ++ [.condensible x])
  have hnew : afterHistory R (ops ++ [.condensible x]) = setCondensible (afterHistory R ops) x := by
    unfold afterHistory
    rw [List.foldl_append]
    rfl
  rw [(getConstant_eq R hi n u).1 _ (by rw [hi.table]; exact resolves_of_not_general hn _),
    (getConstant_eq R hj n u).1 _ (by rw [hj.table]; exact resolves_of_not_general hn _), hnew]
  rfl

/-! ## Non-vacuity -/

namespace Demo

/-- Methane, whose liquid density (a length here) is then set. -/
def methaneHistory : List ConstOp := [.condensible "methane", .set "density_of_liquid_methane" 3 "km"]

-- the hypotheses of `general_names`, and the value read by the general name
example : condensibleOf methaneHistory ≠ "phase" := by decide +kernel
example : StandsFor (condensibleOf methaneHistory) "density_of_liquid_phase" "density_of_liquid_methane" :=
  StandsFor.liquid (q := "density") (by simp)
example : getConstant reg (afterHistory reg methaneHistory) "density_of_liquid_phase" "m" = .ok 3000 := by
  apply Exc.eq_of_test
  decide +kernel

-- a name that is not general: the planet's radius
example : ∀ x s, ¬ StandsFor x "planetary_radius" s := by
  intro x s h
  generalize hn : "planetary_radius" = n at h
  cases h with
  | liquid hq =>
    simp only [List.mem_cons, List.not_mem_nil, or_false] at hq
    rcases hq with rfl | rfl | rfl | rfl <;> exact absurd hn (by decide +kernel)
  | solid hq hf =>
    simp only [List.mem_cons, List.not_mem_nil, or_false] at hq hf
    rcases hq with rfl | rfl | rfl <;> rcases hf with rfl | rfl <;> exact absurd hn (by decide +kernel)
  | short hq hf =>
    simp only [List.mem_cons, List.not_mem_nil, or_false] at hq hf
    rcases hq with rfl | rfl | rfl <;> rcases hf with rfl | rfl <;> exact absurd hn (by decide +kernel)
  | vapor hq =>
    simp only [List.mem_cons, List.not_mem_nil, or_false] at hq
    rcases hq with rfl | rfl <;> exact absurd hn (by decide +kernel)
  | vaporHeat => exact absurd hn (by decide +kernel)
  | vaporization h => subst hn; exact absurd h (by decide +kernel)
  | fusion h => subst hn; exact absurd h (by decide +kernel)

end Demo

end Verif
