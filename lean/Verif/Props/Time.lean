import Verif.Model.Time
import Verif.Lemmas.Lists
/-!
# C56: `sympl.datetime`
-/

namespace Verif

/-- The calendar names of the documentation (time.py:35-39) and what they mean. -/
def documentedCalendars : List (String × Calendar) :=
  [("proleptic_gregorian", .prolepticGregorian), ("no_leap", .noLeap), ("365_day", .noLeap), ("all_leap", .allLeap),
   ("366_day", .allLeap), ("360_day", .day360), ("julian", .julian), ("gregorian", .gregorian)]

/-- Two strings that differ at most in the case of their letters, the second in lower case. -/
def SameLetters (s name : String) : Prop := s.toList.map Char.toLower = name.toList

theorem toLower_eq_iff (s name : String) : s.toLower = name ↔ SameLetters s name := by
  unfold SameLetters String.toLower
  rw [← String.toList_inj, String.toList_map]

/-- **C56.**  For every documented name in any case: a date of that calendar with the given
fields if they are valid there and ValueError otherwise; with a timezone only for the default
calendar, otherwise ValueError; without cftime only the default calendar, otherwise
DependencyError. -/
theorem datetime_documented (lib : DateLib) (f : DateFields) (tz : Option String) (s name : String) (c : Calendar)
    (hn : (name, c) ∈ documentedCalendars) (hs : SameLetters s name) :
    symplDatetime lib f tz s =
      if c ≠ .prolepticGregorian ∧ tz ≠ none then .error .valueError
      else if c ≠ .prolepticGregorian ∧ lib.cftime = false then .error .dependency
      else if lib.valid c f then .ok (some ⟨c, f, tz⟩)
      else .error .valueError := by
  rw [← toLower_eq_iff] at hs
  unfold symplDatetime DateLib.make
  rw [hs]
  unfold documentedCalendars at hn
  simp only [List.mem_cons, Prod.mk.injEq, List.not_mem_nil, or_false] at hn
  rcases hn with ⟨rfl, rfl⟩ | ⟨rfl, rfl⟩ | ⟨rfl, rfl⟩ | ⟨rfl, rfl⟩ | ⟨rfl, rfl⟩ | ⟨rfl, rfl⟩ | ⟨rfl, rfl⟩ | ⟨rfl, rfl⟩
  · cases lib.valid .prolepticGregorian f <;> rfl
  all_goals
    cases tz with
    | some t => rfl
    | none =>
      cases lib.cftime with
      | false => rfl
      | true =>
        simp only [ne_eq, not_true_eq_false, if_false, reduceCtorEq, not_false_eq_true, Bool.true_eq_false,
          and_false, List.mem_cons, List.not_mem_nil, or_false]
        simp only [String.reduceEq, or_self, or_true, true_or, if_true, if_false]
        cases lib.valid _ f <;> rfl

/-- The undocumented name noleap also works. -/
theorem datetime_noleap (lib : DateLib) (f : DateFields) (hc : lib.cftime = true) (hv : lib.valid .noLeap f = true) :
    symplDatetime lib f none "noleap" = .ok (some ⟨.noLeap, f, none⟩) := by
  have : ("noleap" : String).toLower = "noleap" := by decide +kernel
  unfold symplDatetime DateLib.make
  rw [this, hc, hv]
  simp

/-- **C56 fails**: for every other name (with cftime and no timezone) the value None is
returned, for valid and invalid fields alike. -/
theorem datetime_unknown (lib : DateLib) (hc : lib.cftime = true) (f : DateFields) (s : String)
    (hs : ∀ name c, (name, c) ∈ documentedCalendars → ¬ SameLetters s name) (hno : ¬ SameLetters s "noleap") :
    symplDatetime lib f none s = .ok none := by
  have h : ∀ name c, (name, c) ∈ documentedCalendars → s.toLower ≠ name := by
    intro name c hm e
    exact hs name c hm ((toLower_eq_iff s name).1 e)
  have h0 : s.toLower ≠ "noleap" := fun e => hno ((toLower_eq_iff s _).1 e)
  unfold symplDatetime
  rw [if_neg (h _ .prolepticGregorian (by simp [documentedCalendars])), if_neg (by simp), if_neg (by simp [hc]), if_neg, if_neg,
    if_neg (h _ .day360 (by simp [documentedCalendars])), if_neg (h _ .julian (by simp [documentedCalendars])),
    if_neg (h _ .gregorian (by simp [documentedCalendars]))]
  · simp [h0, h "no_leap" .noLeap (by simp [documentedCalendars]), h "365_day" .noLeap (by simp [documentedCalendars])]
  · simp [h "all_leap" .allLeap (by simp [documentedCalendars]), h "366_day" .allLeap (by simp [documentedCalendars])]

/-- A name in mixed case. -/
example : SameLetters "No_Leap" "no_leap" := by
  unfold SameLetters
  decide +kernel

/-- A misspelt name gives None. -/
example : symplDatetime ⟨fun _ _ => true, true⟩ ⟨2000, 1, 1, 0, 0, 0, 0⟩ none "standard" = .ok none := by
  have h : (match symplDatetime ⟨fun _ _ => true, true⟩ ⟨2000, 1, 1, 0, 0, 0, 0⟩ none "standard" with
    | .ok none => true | _ => false) = true := by decide +kernel
  split at h
  · assumption
  · cases h

end Verif
