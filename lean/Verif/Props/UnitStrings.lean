import Verif.Spec.UnitStrings
import Verif.Spec.Demo
/-!
# C71: the signs `%` and `°` in unit strings
-/

namespace Verif

/-- Both replacements of one character. -/
def spellChar (c : Char) : List Char :=
  if c = '%' then "percent".toList else if c = '°' then "degree".toList else [c]

theorem spellOut_toList (s : String) : (spellOut s).toList = s.toList.flatMap spellChar := by
  have e : ∀ c w t, (replaceSign c w t).toList = t.toList.flatMap fun x => if x = c then w.toList else [x] :=
    fun c w t => String.toList_ofList
  unfold spellOut
  rw [e, e, List.flatMap_assoc]
  congr 1
  funext c
  unfold spellChar
  by_cases h : c = '%'
  · rw [if_pos h, if_pos h]
    decide +kernel
  · rw [if_neg h, if_neg h]
    simp

theorem spellOut_of_spelledOut {s t : List Char} (h : SpelledOut s t) : s.flatMap spellChar = t.flatMap spellChar := by
  have letter : ∀ c ∈ "percentdegree".toList, spellChar c = [c] := by decide +kernel
  induction h with
  | nil => rfl
  | same c _ ih => rw [List.flatMap_cons, List.flatMap_cons, ih]
  | percent _ ih =>
    rw [List.flatMap_cons, ih]
    simp only [List.flatMap_cons, letter 'p' (by decide +kernel), letter 'e' (by decide +kernel),
      letter 'r' (by decide +kernel), letter 'c' (by decide +kernel), letter 'n' (by decide +kernel),
      letter 't' (by decide +kernel)]
    rfl
  | degree _ ih =>
    rw [List.flatMap_cons, ih]
    simp only [List.flatMap_cons, letter 'd' (by decide +kernel), letter 'e' (by decide +kernel),
      letter 'g' (by decide +kernel), letter 'r' (by decide +kernel)]
    rfl

/-- Two spellings are spelled out alike. -/
theorem spellOut_eq {s t : String} (h : Spelling s t) : spellOut s = spellOut t := by
  apply String.toList_inj.1
  rw [spellOut_toList, spellOut_toList]
  rcases h with h | h
  · exact spellOut_of_spelledOut h
  · exact (spellOut_of_spelledOut h).symm

theorem spelledOut_self (s : List Char) : SpelledOut s (s.flatMap spellChar) := by
  induction s with
  | nil => exact .nil
  | cons c s ih =>
    rw [List.flatMap_cons]
    unfold spellChar
    split
    · rename_i h
      subst h
      exact .percent ih
    · split
      · rename_i h
        subst h
        exact .degree ih
      · exact .same c ih

/-- Spelling out gives a spelling of the same unit. -/
theorem spelling_spellOut (s : String) : Spelling s (spellOut s) := by
  refine .inl ?_
  rw [spellOut_toList]
  exact spelledOut_self _

theorem spellOut_noSigns {s : String} (h : NoSigns s) : spellOut s = s := by
  apply String.toList_inj.1
  rw [spellOut_toList]
  obtain ⟨h1, h2⟩ := h
  generalize s.toList = l at h1 h2 ⊢
  induction l with
  | nil => rfl
  | cons c l ih =>
    rw [List.flatMap_cons, ih (fun h => h1 (by simp [h])) (fun h => h2 (by simp [h]))]
    unfold spellChar
    rw [if_neg (fun h => h1 (by simp [h])), if_neg (fun h => h2 (by simp [h]))]
    rfl

theorem spellOut_spellOut (s : String) : spellOut (spellOut s) = spellOut s := (spellOut_eq (spelling_spellOut s)).symm

/-- **C71.**  Validity, sameness, the base units and the unit converted from do not depend
on the spelling, whatever pint can read. -/
theorem sign_spellings_partial (P : Pint) (s t : String) (h : Spelling s t) :
    P.isValidUnit s = P.isValidUnit t ∧ P.cleanUnits s = P.cleanUnits t ∧
    (∀ u, P.unitsAreSame s u = P.unitsAreSame t u ∧ P.unitsAreSame u s = P.unitsAreSame u t) ∧
    (∀ u, P.unitsAreCompatible s u = P.unitsAreCompatible t u) ∧
    ∀ x u, P.fromUnitToAnother x s u = P.fromUnitToAnother x t u := by
  have e := spellOut_eq h
  refine ⟨?_, ?_, fun u => ⟨?_, ?_⟩, fun u => ?_, fun x u => ?_⟩
  · unfold Pint.isValidUnit
    rw [e]
  · unfold Pint.cleanUnits Pint.call
    rw [e]
  · unfold Pint.unitsAreSame Pint.call
    rw [e]
  · unfold Pint.unitsAreSame Pint.call
    rw [e]
  · unfold Pint.unitsAreCompatible Pint.call
    rw [e]
  · unfold Pint.fromUnitToAnother Pint.call
    rw [e]

/-- pint reads a string as sympl does. -/
def Pint.ReadsAlike (P : Pint) (s : String) : Prop := P.raw s = P.raw (spellOut s)

theorem readsAlike_of_noSigns (P : Pint) {s : String} (h : NoSigns s) : P.ReadsAlike s := by
  unfold Pint.ReadsAlike
  rw [spellOut_noSigns h]

theorem readsAlike_of_readsSigns {P : Pint} (h : P.ReadsSigns) (s : String) : P.ReadsAlike s :=
  h _ _ (spelling_spellOut s)

theorem own_eq {P : Pint} {s : String} (h : P.ReadsAlike s) : P.own s = P.registry.unit s := by
  unfold Pint.own Registry.unit Pint.registry
  rw [h]
  rfl

theorem call_eq (P : Pint) (s : String) : P.call s = P.registry.unit s := rfl

/-- **C71.**  Every function of units.py, and `DataArray.to_units`, is the one of the
rest of the model (which has a single reading of unit strings) if the strings that pint
reads itself have no signs, or if pint reads the signs. -/
theorem unit_strings_partial (P : Pint) (s t : String)
    (h : P.ReadsSigns ∨ (NoSigns s ∧ NoSigns t)) :
    P.isValidUnit s = P.registry.isValidUnit s ∧
    P.cleanUnits s = P.registry.cleanUnits s ∧
    P.unitsAreSame s t = P.registry.unitsAreSame s t ∧
    P.unitsAreCompatible s t = P.registry.unitsAreCompatible s t ∧
    (∀ x, P.fromUnitToAnother x s t = P.registry.fromUnitToAnother x s t) ∧
    ∀ v : DataArray, v.attrs.get? "units" = some s → P.toUnits v t = v.toUnits P.registry t := by
  have hs : P.ReadsAlike s := by
    rcases h with h | h
    · exact readsAlike_of_readsSigns h s
    · exact readsAlike_of_noSigns P h.1
  have ht : P.ReadsAlike t := by
    rcases h with h | h
    · exact readsAlike_of_readsSigns h t
    · exact readsAlike_of_noSigns P h.2
  refine ⟨?_, rfl, rfl, ?_, fun x => ?_, fun v hv => ?_⟩
  · show _ = (P.raw (spellOut s)).isSome
    unfold Pint.isValidUnit Pint.call Pint.own
    rw [spellOut_spellOut]
    cases P.raw (spellOut s) <;> rfl
  · unfold Pint.unitsAreCompatible Registry.unitsAreCompatible
    rw [own_eq ht]
    rfl
  · unfold Pint.fromUnitToAnother Registry.fromUnitToAnother
    rw [own_eq ht]
    rfl
  · unfold Pint.toUnits DataArray.toUnits Pint.dataArrayToUnits DataArray.dataArrayToUnits
    rw [hv]
    simp only [own_eq hs, own_eq ht, call_eq]
    cases ha : P.registry.unit s with
    | error e => rfl
    | ok a =>
      cases hb : P.registry.unit t with
      | error e => rfl
      | ok b =>
        simp only [Exc.ok_bind]
        by_cases hq : a.sameQty b = true
        · simp only [if_pos hq]
        · by_cases hd : a.dim = b.dim
          · simp only [if_neg hq, if_pos hd]
          · simp only [if_neg hq, if_neg hd]

/-- **C71, all spellings.**  If pint reads the signs, no function depends on the spelling;
a converted DataArray differs only in the text of its units. -/
theorem sign_spellings_read (P : Pint) (hP : P.ReadsSigns) (s t : String) (h : Spelling s t) :
    (∀ u, P.unitsAreCompatible u s = P.unitsAreCompatible u t) ∧
    (∀ x u, P.fromUnitToAnother x u s = P.fromUnitToAnother x u t) ∧
    ∀ v : DataArray, (∀ e, P.toUnits v s = .error e ↔ P.toUnits v t = .error e) ∧
      ∀ q, P.toUnits v s = .ok q → ∃ q', P.toUnits v t = .ok q' ∧ q'.dims = q.dims ∧ q'.arr = q.arr := by
  have e := hP s t h
  have e' := spellOut_eq h
  have ho : P.own s = P.own t := by
    unfold Pint.own
    rw [e]
  have hc : P.call s = P.call t := by
    unfold Pint.call
    rw [e']
  refine ⟨fun u => ?_, fun x u => ?_, fun v => ?_⟩
  · unfold Pint.unitsAreCompatible
    rw [ho]
  · unfold Pint.fromUnitToAnother
    rw [ho]
  · unfold Pint.toUnits Pint.dataArrayToUnits
    cases hv : v.attrs.get? "units" with
    | none => exact ⟨fun e => Iff.rfl, fun q hq => (by cases hq)⟩
    | some mine =>
      simp only [ho, hc]
      cases P.call mine with
      | error e => exact ⟨fun e => Iff.rfl, fun q hq => ⟨q, hq, rfl, rfl⟩⟩
      | ok a =>
        cases P.call t with
        | error e => exact ⟨fun e => Iff.rfl, fun q hq => ⟨q, hq, rfl, rfl⟩⟩
        | ok b =>
          simp only [Exc.ok_bind]
          by_cases hq : a.sameQty b = true
          · simp only [if_pos hq]
            exact ⟨fun e => trivial, fun q hq => ⟨q, hq, rfl, rfl⟩⟩
          · simp only [if_neg hq]
            cases P.own mine with
            | error e => exact ⟨fun e => Iff.rfl, fun q hq => ⟨q, hq, rfl, rfl⟩⟩
            | ok a' =>
              cases P.own t with
              | error e => exact ⟨fun e => Iff.rfl, fun q hq => ⟨q, hq, rfl, rfl⟩⟩
              | ok b' =>
                simp only [Exc.ok_bind]
                by_cases hd : a'.dim = b'.dim
                · simp only [if_pos hd]
                  refine ⟨fun e => ⟨fun h => (by cases h), fun h => (by cases h)⟩, fun q hq => ?_⟩
                  injection hq with hq
                  subst hq
                  exact ⟨_, rfl, rfl, rfl⟩
                · simp only [if_neg hd]
                  exact ⟨fun e => trivial, fun q hq => ⟨q, hq, rfl, rfl⟩⟩

/-- **C71, the exception.**  If pint does not read `s` but reads it spelled out: `s` is a
valid unit, the same as and compatible with the spelled out one, but not the other way
round; and no DataArray in units `s`, or to be converted to `s`, can be converted
(unless no conversion is needed): UndefinedUnitError. -/
theorem sign_units_unreadable (P : Pint) (s : String) (a : PintUnit) (h0 : P.raw s = none)
    (h1 : P.raw (spellOut s) = some a) :
    P.isValidUnit s = true ∧ P.unitsAreSame s (spellOut s) = .ok true ∧
    P.unitsAreCompatible s (spellOut s) = .ok true ∧
    P.unitsAreCompatible (spellOut s) s = .error .undefinedUnit ∧
    P.unitsAreCompatible s s = .error .undefinedUnit ∧
    ∀ (v : DataArray) (u u' : String), v.attrs.get? "units" = some u → P.unitsAreSame u u' = .ok false →
      u = s ∨ u' = s → P.toUnits v u' = .error .undefinedUnit := by
  have hc : P.call s = .ok a := by
    unfold Pint.call Pint.own
    rw [h1]
  have hc' : P.call (spellOut s) = .ok a := by
    unfold Pint.call Pint.own
    rw [spellOut_spellOut, h1]
  have ho : P.own s = .error .undefinedUnit := by
    unfold Pint.own
    rw [h0]
  have ho' : P.own (spellOut s) = .ok a := by
    unfold Pint.own
    rw [h1]
  refine ⟨?_, ?_, ?_, ?_, ?_, ?_⟩
  · unfold Pint.isValidUnit
    rw [hc']
  · unfold Pint.unitsAreSame
    rw [hc, hc']
    simp [Exc.ok_bind, PintUnit.sameQty]
  · unfold Pint.unitsAreCompatible
    rw [hc, ho']
    simp [Exc.ok_bind]
  · unfold Pint.unitsAreCompatible
    rw [hc', ho]
    rfl
  · unfold Pint.unitsAreCompatible
    rw [hc, ho]
    rfl
  · intro v u u' hv hne hs
    unfold Pint.unitsAreSame at hne
    obtain ⟨b, hb, hne⟩ := Exc.bind_ok_iff.1 hne
    obtain ⟨b', hb', hne⟩ := Exc.bind_ok_iff.1 hne
    injection hne with hne
    unfold Pint.toUnits Pint.dataArrayToUnits
    rw [hv]
    simp only [hb, hb', Exc.ok_bind, hne]
    rcases hs with rfl | rfl
    · rw [ho]
      rfl
    · unfold Pint.own
      cases hu : P.raw u with
      | none => rfl
      | some c =>
        simp only [Exc.ok_bind, h0]
        rfl

/-! ## Non-vacuity -/

namespace Demo

def percentTable : Dict PintUnit :=
  [("percent", mkU [0] (1 / 100) 0 (by decide +kernel)), ("dimensionless", mkU [0] 1 0 (by decide))]

/-- A pint that reads no signs, and one that reads them. -/
def plainPint : Pint := ⟨fun s => percentTable.get? s, id⟩
def signPint : Pint := ⟨fun s => percentTable.get? (spellOut s), id⟩

/-- 50 %. -/
def half : DataArray := ⟨[], ⟨[], fun _ => 50⟩, [("units", "%")]⟩

example : Spelling "%" "percent" := .inl (.percent .nil)
example : Spelling "°C" "degreeC" := .inl (.degree (.same 'C' .nil))
example : NoSigns "percent" := by
  unfold NoSigns
  decide +kernel
example : signPint.ReadsSigns := fun s t h => by
  unfold signPint
  simp only [spellOut_eq h]
-- the hypotheses of `sign_units_unreadable`
example : plainPint.raw "%" = none := by
  have : (plainPint.raw "%").isNone = true := by decide +kernel
  simpa using this
example : ∃ a, plainPint.raw (spellOut "%") = some a := Option.isSome_iff_exists.1 (by decide +kernel)
example : plainPint.unitsAreSame "%" "dimensionless" = .ok false := by
  have : Exc.test (plainPint.unitsAreSame "%" "dimensionless") (fun b => !b) = true := by decide +kernel
  obtain ⟨b, h, hb⟩ := Exc.test_ok this
  cases b
  · exact h
  · cases hb
-- so 50 % cannot be converted, unless pint reads the sign
example : plainPint.toUnits half "dimensionless" = .error .undefinedUnit := Exc.failsWith_error (by decide +kernel)
example : Exc.test (signPint.toUnits half "dimensionless") (fun q => decide (q.arr.get [] = 1 / 2)) = true := by
  decide +kernel

end Demo

end Verif
