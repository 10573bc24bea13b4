import Verif.Model.Combine
import Verif.Spec.Demo
import Verif.Lemmas.Lists
import Verif.Props.Units
import Mathlib.Tactic.Tauto
/-!
# C26, C27: combining property dictionaries

`combine_dims` contains a slip: `shared_dims = set(dims2).intersection(dims2)`.
C26 is therefore false when exactly one argument has a wildcard; the theorems below
say exactly what holds and give the counterexamples.
-/

namespace Verif

/-- A quantity with dims `q` can be used where dims `spec` are asked for: all named
dims are present, and others only if there is a wildcard. -/
def Acceptable (q spec : List String) : Prop :=
  (∀ d ∈ spec, d ≠ "*" → d ∈ q) ∧ ∀ d ∈ q, d ∈ spec ∨ "*" ∈ spec

theorem mem_dimSet {l : List String} {d : String} : d ∈ dimSet l ↔ d ∈ l ∧ d ≠ "*" := by
  simp [dimSet, List.mem_filter, List.mem_eraseDups]

theorem mem_order {o : SetOrder} {a b : List String} {d : String} :
    d ∈ o.f ((dimSet a ++ dimSet b).eraseDups) ↔ (d ∈ a ∨ d ∈ b) ∧ d ≠ "*" := by
  rw [(o.perm _).mem_iff]
  simp only [List.mem_eraseDups, List.mem_append, mem_dimSet]
  tauto

theorem sameSet_iff {a b : List String} : sameSet a b = true ↔ ∀ d, d ∈ a ↔ d ∈ b := by
  simp only [sameSet, Bool.and_eq_true, List.all_eq_true, decide_eq_true_eq]
  constructor
  · rintro ⟨h1, h2⟩ d; exact ⟨h1 d, h2 d⟩
  · intro h; exact ⟨fun d hd => (h d).1 hd, fun d hd => (h d).2 hd⟩

theorem filter_self_mem (l : List String) : l.filter (· ∈ l) = l :=
  List.filter_eq_self.2 (by simp)

/-- The same named dims. -/
def SameNamed (d1 d2 : List String) : Prop := ∀ d, d ≠ "*" → (d ∈ d1 ↔ d ∈ d2)

theorem sameSet_dimSet {a b : List String} : sameSet (dimSet a) (dimSet b) = true ↔ SameNamed a b := by
  rw [sameSet_iff]
  unfold SameNamed
  simp only [mem_dimSet]
  constructor
  · intro h d hd; have := h d; tauto
  · intro h d; have := h d; tauto

/-- Exactly when `combine_dims` succeeds. -/
theorem combine_dims_ok_iff (o : SetOrder) (d1 d2 : List String) :
    (∃ d, combineDims o d1 d2 = .ok d) ↔
      d1 = d2 ∨ ("*" ∈ d1) ∨ ("*" ∉ d1 ∧ SameNamed d1 d2) := by
  unfold combineDims
  by_cases he : d1 = d2
  · simp [he]
  simp only [he, if_false, false_or, filter_self_mem]
  have hself : sameSet (dimSet d2) (dimSet d2) = true := sameSet_dimSet.2 (fun _ _ => Iff.rfl)
  by_cases h1 : "*" ∈ d1 <;> by_cases h2 : "*" ∈ d2 <;> simp [h1, h2, hself]
  · by_cases hs : sameSet (dimSet d2) (dimSet d1) = true
    · have := sameSet_dimSet.1 hs
      simp [hs]; exact fun d hd => (this d hd).symm
    · have hn : ¬ SameNamed d1 d2 := fun h => hs (sameSet_dimSet.2 fun d hd => (h d hd).symm)
      simp [hs, hn]
  · by_cases hs : sameSet (dimSet d2) (dimSet d1) = true
    · have := sameSet_dimSet.1 hs
      simp [hs]; exact fun d hd => (this d hd).symm
    · have hn : ¬ SameNamed d1 d2 := fun h => hs (sameSet_dimSet.2 fun d hd => (h d hd).symm)
      simp [hs, hn]

/-- What a successful result contains. -/
theorem combineDims_mem {o : SetOrder} {d1 d2 d : List String} (h : combineDims o d1 d2 = .ok d) :
    (∀ x, x ≠ "*" → (x ∈ d ↔ x ∈ d1 ∨ x ∈ d2)) ∧ ("*" ∈ d ↔ "*" ∈ d1 ∧ "*" ∈ d2) ∧
    ("*" ∈ d1 ∨ SameNamed d1 d2) := by
  have hok := (combine_dims_ok_iff o d1 d2).1 ⟨d, h⟩
  unfold combineDims at h
  by_cases he : d1 = d2
  · subst he
    simp at h; subst h
    exact ⟨fun x _ => by simp, by simp, Or.inr fun _ _ => Iff.rfl⟩
  simp only [he, if_false] at h
  have hres : d = "*" :: o.f ((dimSet d1 ++ dimSet d2).eraseDups) ∧ "*" ∈ d1 ∧ "*" ∈ d2 ∨
      d = o.f ((dimSet d1 ++ dimSet d2).eraseDups) ∧ ¬ ("*" ∈ d1 ∧ "*" ∈ d2) := by
    split at h
    · injection h with h; exact Or.inl ⟨h.symm, by assumption⟩
    · right
      refine ⟨?_, by assumption⟩
      split at h
      · split at h
        · cases h
        · injection h with h; exact h.symm
      · split at h
        · split at h
          · cases h
          · injection h with h; exact h.symm
        · split at h
          · cases h
          · injection h with h; exact h.symm
  refine ⟨?_, ?_, ?_⟩
  · intro x hx
    rcases hres with ⟨rfl, _⟩ | ⟨rfl, _⟩
    · rw [List.mem_cons, mem_order]; simp [hx]
    · rw [mem_order]; simp [hx]
  · rcases hres with ⟨rfl, h1, h2⟩ | ⟨rfl, hn⟩
    · simp [h1, h2]
    · rw [mem_order]; simp only [hn, iff_false]; simp
  · rcases hok with h | h | h
    · exact absurd h he
    · exact Or.inl h
    · exact Or.inr h.2

/-- **C26 (partial), soundness.**  Whatever is acceptable under the combined dims is
acceptable under the first argument; and under the second, provided that when only
the first has a wildcard, it names no dim the second lacks.  Without that proviso the
claim is false (`combine_dims_unsound`). -/
theorem combine_dims_sound_partial (o : SetOrder) (d1 d2 d q : List String)
    (h : combineDims o d1 d2 = .ok d) (hq : Acceptable q d) :
    Acceptable q d1 ∧
    ((("*" ∈ d1 → "*" ∈ d2 ∨ ∀ x ∈ d1, x ≠ "*" → x ∈ d2)) → Acceptable q d2) := by
  obtain ⟨m1, m2, m3⟩ := combineDims_mem h
  obtain ⟨q1, q2⟩ := hq
  constructor
  · constructor
    · intro x hx hne
      exact q1 x ((m1 x hne).2 (Or.inl hx)) hne
    · intro x hx
      by_cases hs : "*" ∈ d1
      · exact Or.inr hs
      · left
        rcases q2 x hx with hx | hx
        · by_cases hxe : x = "*"
          · subst hxe; exact absurd (m2.1 hx).1 hs
          · rcases (m1 x hxe).1 hx with h' | h'
            · exact h'
            · rcases m3 with m3 | m3
              · exact absurd m3 hs
              · exact (m3 x hxe).2 h'
        · exact absurd (m2.1 hx).1 hs
  · intro hp
    constructor
    · intro x hx hne
      exact q1 x ((m1 x hne).2 (Or.inr hx)) hne
    · intro x hx
      by_cases hs : "*" ∈ d2
      · exact Or.inr hs
      · left
        rcases q2 x hx with hx | hx
        · by_cases hxe : x = "*"
          · subst hxe; exact absurd (m2.1 hx).2 hs
          · rcases (m1 x hxe).1 hx with h' | h'
            · rcases m3 with m3 | m3
              · rcases hp m3 with hp | hp
                · exact absurd hp hs
                · exact hp x h' hxe
              · exact (m3 x hxe).1 h'
            · exact h'
        · exact absurd (m2.1 hx).2 hs

/-- The combined dims are as permissive as possible: what both arguments accept, they
accept. -/
theorem combine_dims_most_general (o : SetOrder) (d1 d2 d q : List String)
    (h : combineDims o d1 d2 = .ok d) (hq : "*" ∉ q) (h1 : Acceptable q d1) (h2 : Acceptable q d2) :
    Acceptable q d := by
  obtain ⟨m1, m2, m3⟩ := combineDims_mem h
  constructor
  · intro x hx hne
    rcases (m1 x hne).1 hx with h' | h'
    · exact h1.1 x h' hne
    · exact h2.1 x h' hne
  · intro x hx
    have hne : x ≠ "*" := fun e => hq (e ▸ hx)
    rcases h1.2 x hx with a | a
    · exact Or.inl ((m1 x hne).2 (Or.inl a))
    · rcases h2.2 x hx with b | b
      · exact Or.inl ((m1 x hne).2 (Or.inr b))
      · exact Or.inr (m2.2 ⟨a, b⟩)

/-- **C26 (partial), order.**  When both or neither argument has a wildcard,
exchanging the arguments changes neither whether it raises nor what is acceptable. -/
theorem combine_dims_symmetric_partial (o : SetOrder) (d1 d2 : List String)
    (hw : "*" ∈ d1 ↔ "*" ∈ d2) :
    ((∃ d, combineDims o d1 d2 = .ok d) ↔ ∃ d, combineDims o d2 d1 = .ok d) ∧
    ∀ d d', combineDims o d1 d2 = .ok d → combineDims o d2 d1 = .ok d' →
      ∀ q, Acceptable q d ↔ Acceptable q d' := by
  constructor
  · rw [combine_dims_ok_iff, combine_dims_ok_iff]
    unfold SameNamed
    constructor
    · rintro (h | h | ⟨h, h'⟩)
      · exact Or.inl h.symm
      · exact Or.inr (Or.inl (hw.1 h))
      · exact Or.inr (Or.inr ⟨fun x => h (hw.2 x), fun d hd => (h' d hd).symm⟩)
    · rintro (h | h | ⟨h, h'⟩)
      · exact Or.inl h.symm
      · exact Or.inr (Or.inl (hw.2 h))
      · exact Or.inr (Or.inr ⟨fun x => h (hw.1 x), fun d hd => (h' d hd).symm⟩)
  · intro d d' h h' q
    obtain ⟨m1, m2, _⟩ := combineDims_mem h
    obtain ⟨n1, n2, _⟩ := combineDims_mem h'
    have hm : ∀ x, x ∈ d ↔ x ∈ d' := by
      intro x
      by_cases hx : x = "*"
      · subst hx; rw [m2, n2]; exact And.comm
      · rw [m1 x hx, n1 x hx]; exact Or.comm
    unfold Acceptable
    simp only [hm]

/-- Counterexample to C26: the combination of `['*', 'z']` and `['y']` accepts a
quantity on (z, y), which the second argument does not accept; no quantity satisfies
both, and the code should raise. -/
theorem combine_dims_unsound (o : SetOrder) :
    ∃ d, combineDims o ["*", "z"] ["y"] = .ok d ∧ Acceptable ["z", "y"] d ∧
      ¬ Acceptable ["z", "y"] ["y"] := by
  obtain ⟨d, h⟩ := (combine_dims_ok_iff o ["*", "z"] ["y"]).2 (by simp)
  obtain ⟨m1, _, _⟩ := combineDims_mem h
  refine ⟨d, h, ⟨?_, ?_⟩, ?_⟩
  · intro x hx hne
    have := (m1 x hne).1 hx
    simp [hne] at this ⊢
    exact this
  · intro x hx
    left
    have hne : x ≠ "*" := by rintro rfl; simp at hx
    rw [m1 x hne]
    simpa [hne] using hx
  · simp [Acceptable]

/-- Counterexample to C26: whether `combine_dims` raises depends on the order of its
arguments, for any dims with and without wildcard. -/
theorem combine_dims_order_dependent (o : SetOrder) (d1 d2 : List String) (h1 : "*" ∈ d1)
    (h2 : "*" ∉ d2) (hx : ¬ SameNamed d1 d2) :
    (∃ d, combineDims o d1 d2 = .ok d) ∧ ¬ ∃ d, combineDims o d2 d1 = .ok d := by
  rw [combine_dims_ok_iff, combine_dims_ok_iff]
  refine ⟨Or.inr (Or.inl h1), ?_⟩
  rintro (h | h | ⟨_, h⟩)
  · subst h; exact hx fun _ _ => Iff.rfl
  · exact h2 h
  · exact hx fun d hd => (h d hd).symm

/-- An order for the examples: as given. -/
def Demo.order : SetOrder := ⟨id, fun _ => List.Perm.refl _⟩

example : Exc.test (combineDims Demo.order ["*", "z"] ["y", "*"]) (· = ["*", "z", "y"]) = true ∧
    Exc.test (combineDims Demo.order ["*"] ["z"]) (· = ["z"]) = true ∧
    Exc.failsWith (combineDims Demo.order ["z"] ["*"]) .invalidPropertyDict = true ∧
    Exc.test (combineDims Demo.order ["x", "z"] ["z", "x"]) (· = ["x", "z"]) = true := by decide +kernel

/-! ## C27 -/

/-- The entries for one quantity, in order, over a list of dictionaries. -/
def entriesOf (l : List PropDict) (n : String) : List QProps :=
  l.flatten.filterMap fun kv => if kv.1 = n then some kv.2 else none

theorem combineLoop_eq (R : Registry) (o : SetOrder) (inP : PropDict) (l : List PropDict) (out : PropDict) :
    combineLoop R o inP l out = combineDict R o inP l.flatten out := by
  have happ : ∀ (a b : PropDict) (out : PropDict), combineDict R o inP (a ++ b) out =
      (combineDict R o inP a out >>= combineDict R o inP b) := by
    intro a b
    induction a with
    | nil => intro out; rfl
    | cons kv a ih =>
      intro out
      show combineDict R o inP ((kv.1, kv.2) :: (a ++ b)) out =
        (combineDict R o inP ((kv.1, kv.2) :: a) out >>= combineDict R o inP b)
      unfold combineDict
      cases combineEntry R o inP out kv.1 kv.2 with
      | error e => rfl
      | ok r => exact ih r
  induction l generalizing out with
  | nil => rfl
  | cons d l ih =>
    rw [List.flatten_cons, happ]
    unfold combineLoop
    congr 1
    funext r
    exact ih r

theorem combineEntry_ok {R : Registry} {o : SetOrder} {inP out out' : PropDict} {n : String} {p : QProps}
    (h : combineEntry R o inP out n p = .ok out') :
    (∀ m, m ≠ n → out'.get? m = out.get? m) ∧
    (∀ m, m ∈ out'.keys ↔ m ∈ out.keys ∨ m = n) ∧
    ((out.get? n = none ∧ ∃ r', out'.get? n = some r' ∧ r'.units = p.units ∧ r'.aliasName = p.aliasName ∧
        r'.dims = combineEffDims inP n p ∧ r'.dims.isSome) ∨
     (∃ r r' u v d d0 dp, out.get? n = some r ∧ out'.get? n = some r' ∧ r' = { r with dims := some d } ∧
        r.units = some v ∧ p.units = some u ∧ R.unitsAreCompatible u v = .ok true ∧
        r.dims = some d0 ∧ combineEffDims inP n p = some dp ∧ combineDims o d0 dp = .ok d)) := by
  unfold combineEntry at h
  cases hg : out.get? n with
  | none =>
    rw [hg] at h
    cases hd : combineEffDims inP n p with
    | none => rw [hd] at h; cases h
    | some d =>
      rw [hd] at h
      injection h with h
      subst h
      refine ⟨fun m hm => Dict.get?_set_ne _ _ (Ne.symm hm), fun m => by rw [Dict.mem_keys_set]; exact Or.comm, Or.inl
        ⟨rfl, _, Dict.get?_set_self _ _ _, rfl, rfl, rfl, rfl⟩⟩
  | some r =>
    rw [hg] at h
    dsimp only at h
    split at h
    · rename_i u v hu hv
      obtain ⟨ok, hc, h⟩ := Exc.bind_ok_iff.1 h
      cases ok with
      | false => simp at h
      | true =>
        simp only [Bool.not_true, Bool.false_eq_true, if_false] at h
        split at h
        · rename_i dp d0 hdp hd0
          obtain ⟨d, hd, h⟩ := Exc.bind_ok_iff.1 h
          injection h with h
          subst h
          refine ⟨fun m hm => Dict.get?_set_ne _ _ (Ne.symm hm), fun m => by rw [Dict.mem_keys_set]; exact Or.comm, Or.inr
            ⟨r, _, u, v, d, d0, dp, rfl, Dict.get?_set_self _ _ _, rfl, hv, hu, hc, hd0, hdp, hd⟩⟩
        · cases h
        · cases h
    · cases h

theorem entries_cons (kv : String × QProps) (l : PropDict) (n : String) :
    (entriesOf [kv :: l] n) = (if kv.1 = n then [kv.2] else []) ++ entriesOf [l] n := by
  unfold entriesOf
  simp only [List.flatten_cons, List.flatten_nil, List.append_nil, List.filterMap_cons]
  split
  · rename_i h
    split at h
    · cases h
    · rename_i hne; simp [hne]
  · rename_i h
    split at h
    · rename_i he; simp at h; simp [he, h]
    · cases h

theorem mem_entries {l : PropDict} {n : String} {p : QProps} : p ∈ entriesOf [l] n ↔ (n, p) ∈ l := by
  unfold entriesOf
  simp only [List.flatten_cons, List.flatten_nil, List.append_nil, List.mem_filterMap]
  constructor
  · rintro ⟨kv, hkv, h⟩
    split at h
    · rename_i he; injection h with h; rw [← he, ← h]; exact hkv
    · cases h
  · intro h; exact ⟨(n, p), h, by simp⟩

theorem combineDict_ok {R : Registry} {o : SetOrder} {inP : PropDict} (l : PropDict) {out res : PropDict}
    (h : combineDict R o inP l out = .ok res) :
    (∀ n, n ∈ res.keys ↔ n ∈ out.keys ∨ n ∈ l.keys) ∧
    ∀ n r, res.get? n = some r →
      ((∃ r0, out.get? n = some r0 ∧ r.units = r0.units ∧ r.aliasName = r0.aliasName ∧
          ((entriesOf [l] n = [] ∧ r = r0) ∨ entriesOf [l] n ≠ []) ∧
          ∀ p ∈ entriesOf [l] n, ∃ u v, p.units = some u ∧ r0.units = some v ∧
            R.unitsAreCompatible u v = .ok true) ∨
       (out.get? n = none ∧ ∃ p0 ps, entriesOf [l] n = p0 :: ps ∧ r.units = p0.units ∧
          r.aliasName = p0.aliasName ∧
          ∀ p ∈ ps, ∃ u v, p.units = some u ∧ p0.units = some v ∧
            R.unitsAreCompatible u v = .ok true)) := by
  induction l generalizing out with
  | nil =>
    injection h with h; subst h
    refine ⟨fun n => by simp, fun n r hr => Or.inl ⟨r, hr, rfl, rfl, Or.inl ⟨rfl, rfl⟩, ?_⟩⟩
    intro p hp; cases hp
  | cons kv l ih =>
    obtain ⟨k, p⟩ := kv
    unfold combineDict at h
    obtain ⟨mid, hm, h⟩ := Exc.bind_ok_iff.1 h
    obtain ⟨i1, i2⟩ := ih h
    obtain ⟨e1, e2, e3⟩ := combineEntry_ok hm
    constructor
    · intro n; rw [i1, e2, Dict.keys_cons, List.mem_cons]; tauto
    · intro n r hr
      rw [entries_cons]
      by_cases hk : k = n
      · subst hk
        simp only [if_true]
        rcases e3 with ⟨g0, r', g1, g2, g3, _⟩ | ⟨r0, r', u, v, d, d0, dp, g0, g1, g2, g3, g4, g5, _⟩
        · right
          refine ⟨g0, p, _, rfl, ?_⟩
          rcases i2 k r hr with ⟨r1, a1, a2, a3, _, a4⟩ | ⟨a, _⟩
          · rw [g1] at a1; cases a1
            refine ⟨a2.trans g2, a3.trans g3, ?_⟩
            intro p' hp'
            obtain ⟨u, v, hu, hv, hc⟩ := a4 p' hp'
            exact ⟨u, v, hu, by rw [← g2]; exact hv, hc⟩
          · rw [g1] at a; cases a
        · left
          refine ⟨r0, g0, ?_⟩
          rcases i2 k r hr with ⟨r1, a1, a2, a3, _, a4⟩ | ⟨a, _⟩
          · rw [g1] at a1; cases a1
            subst g2
            refine ⟨a2, a3, Or.inr (by simp), ?_⟩
            intro p' hp'
            rw [List.singleton_append, List.mem_cons] at hp'
            rcases hp' with rfl | hp'
            · exact ⟨u, v, g4, g3, g5⟩
            · exact a4 p' hp'
          · rw [g1] at a; cases a
      · simp only [hk, if_false, List.nil_append]
        rw [← e1 n (Ne.symm hk)]
        exact i2 n r hr

/-- **C27, result.**  The combined properties have exactly the quantities of the
dictionaries combined; each with the units (and alias) of the first entry for it; and
the units of any two entries for it are compatible. -/
theorem combined_properties_cover (R : Registry) (o : SetOrder) (l : List PropDict) (inP res : PropDict)
    (h : combineProperties R o l inP = .ok res) :
    (∀ n, n ∈ res.keys ↔ ∃ d ∈ l, n ∈ Dict.keys d) ∧
    (∀ n r, res.get? n = some r → ∃ p0 ps, entriesOf l n = p0 :: ps ∧ r.units = p0.units ∧
      r.aliasName = p0.aliasName) ∧
    (∀ n p q, [p, q].Sublist (entriesOf l n) → ∃ u v, p.units = some u ∧ q.units = some v ∧
      R.unitsAreCompatible u v = .ok true) := by
  unfold combineProperties at h
  rw [combineLoop_eq] at h
  obtain ⟨c1, c2⟩ := combineDict_ok _ h
  have hent : ∀ n, entriesOf l n = entriesOf [l.flatten] n := by
    intro n; unfold entriesOf; simp
  have hk : ∀ n, n ∈ res.keys ↔ ∃ d ∈ l, n ∈ Dict.keys d := by
    intro n
    rw [c1]
    simp only [Dict.keys_nil, List.not_mem_nil, false_or]
    unfold Dict.keys
    rw [List.mem_map]
    constructor
    · rintro ⟨kv, hkv, rfl⟩
      obtain ⟨d, hd, hkv⟩ := List.mem_flatten.1 hkv
      exact ⟨d, hd, List.mem_map.2 ⟨kv, hkv, rfl⟩⟩
    · rintro ⟨d, hd, hn⟩
      obtain ⟨kv, hkv, rfl⟩ := List.mem_map.1 hn
      exact ⟨kv, List.mem_flatten.2 ⟨d, hd, hkv⟩, rfl⟩
  refine ⟨hk, ?_, ?_⟩
  · intro n r hr
    rcases c2 n r hr with ⟨r0, h0, _⟩ | ⟨_, p0, ps, h1, h2, h3, _⟩
    · cases h0
    · exact ⟨p0, ps, by rw [hent]; exact h1, h2, h3⟩
  · intro n p q hpq
    rw [hent] at hpq
    obtain ⟨e1, e2, e3⟩ := units_compatible_equivalence R
    have hp : p ∈ entriesOf [l.flatten] n := hpq.subset (by simp)
    have hn : n ∈ res.keys := by
      rw [c1]
      exact Or.inr (Dict.mem_keys_of_mem (kv := (n, p)) (mem_entries.1 hp))
    obtain ⟨r, hr⟩ := Dict.get?_of_mem_keys hn
    rcases c2 n r hr with ⟨r0, h0, _⟩ | ⟨_, p0, ps, h1, _, _, h4⟩
    · cases h0
    · rw [h1] at hpq
      cases hpq with
      | cons _ hs =>
        obtain ⟨u, v, hu, hv, hc⟩ := h4 p (hs.subset (by simp))
        obtain ⟨u', v', hu', hv', hc'⟩ := h4 q (hs.subset (by simp))
        rw [hv] at hv'; cases hv'
        exact ⟨u, u', hu, hu', e3 _ _ _ hc (e2 _ _ _ hc')⟩
      | cons_cons _ hs =>
        obtain ⟨u, v, hu, hv, hc⟩ := h4 q (hs.subset (by simp))
        exact ⟨v, u, hv, hu, e2 _ _ _ hc⟩

/-- **C27, components.**  The combined input properties of components are exactly the
inputs of the components, the registered tracers and the components' own prepended
tracers (the last two for components using tracers). -/
theorem combined_inputs_cover (R : Registry) (o : SetOrder) (g : Tracers) (cs : List Class) (res : PropDict)
    (h : combineInputs R o g cs = .ok res) (n : String) :
    n ∈ res.keys ↔ ∃ c ∈ cs, n ∈ c.inProps.keys ∨
      (c.usesTracers = true ∧ (n ∈ g.units.keys ∨ n ∈ Dict.keys c.prepend)) := by
  unfold combineInputs at h
  obtain ⟨ls, hls, h⟩ := Exc.bind_ok_iff.1 h
  rw [(combined_properties_cover R o _ _ res h).1]
  have hcon : ∀ c l, inputContribution g c = .ok l → ((∃ d ∈ l, n ∈ Dict.keys d) ↔ (n ∈ c.inProps.keys ∨
      (c.usesTracers = true ∧ (n ∈ g.units.keys ∨ n ∈ Dict.keys c.prepend)))) := by
    intro c l hl
    unfold inputContribution at hl
    cases hu : c.usesTracers with
    | false =>
      rw [hu] at hl
      simp at hl; subst hl; simp
    | true =>
      rw [hu] at hl
      simp only [if_true] at hl
      cases htd : c.tracerDims with
      | none => rw [htd] at hl; cases hl
      | some td =>
        rw [htd] at hl
        dsimp only at hl
        split at hl
        · cases hl
        · injection hl with hl
          subst hl
          simp only [List.mem_cons, List.not_mem_nil, or_false, exists_eq_or_imp, exists_eq_left, true_and]
          refine or_congr Iff.rfl ?_
          unfold tracerProps
          rw [Dict.keys_mapVal, Dict.mem_keys_update, Dict.mem_keys_update, Dict.mem_keys_update]
          simp
  constructor
  · rintro ⟨d, hd, hn⟩
    obtain ⟨l, hl, hd⟩ := List.mem_flatten.1 hd
    obtain ⟨c, hc, hcl⟩ := mapM_ok_mem_right hls hl
    exact ⟨c, hc, (hcon c l hcl).1 ⟨d, hd, hn⟩⟩
  · rintro ⟨c, hc, hn⟩
    obtain ⟨l, hl, hcl⟩ := mapM_ok_mem_left hls hc
    obtain ⟨d, hd, hn⟩ := (hcon c l hcl).2 hn
    exact ⟨d, List.mem_flatten.2 ⟨l, hl, hd⟩, hn⟩

/-- All units are given and known to pint. -/
def KnownUnits (R : Registry) (l : List PropDict) : Prop :=
  ∀ d ∈ l, ∀ kv ∈ d, ∃ u, kv.2.units = some u ∧ (R.parse u).isSome

theorem compatible_known {R : Registry} {u v : String} (hu : (R.parse u).isSome) (hv : (R.parse v).isSome) :
    ∃ b, R.unitsAreCompatible u v = .ok b := by
  obtain ⟨a, ha⟩ := Option.isSome_iff_exists.1 hu
  obtain ⟨b, hb⟩ := Option.isSome_iff_exists.1 hv
  exact ⟨decide (a.dim = b.dim), by simp [Registry.unitsAreCompatible, Registry.unit, ha, hb]⟩

theorem combineDims_error {o : SetOrder} {a b : List String} {e : Err} (h : combineDims o a b = .error e) :
    e = .invalidPropertyDict := by
  unfold combineDims at h
  dsimp only at h
  repeat' split at h
  all_goals first | cases h; rfl | cases h

/-- Every entry has known units and dims. -/
def GoodDict (R : Registry) (out : PropDict) : Prop :=
  ∀ n r, out.get? n = some r → (∃ u, r.units = some u ∧ (R.parse u).isSome) ∧ r.dims.isSome

theorem combineDict_error {R : Registry} {o : SetOrder} {inP : PropDict} (l : PropDict) {out : PropDict} {e : Err}
    (hl : ∀ kv ∈ l, ∃ u, kv.2.units = some u ∧ (R.parse u).isSome)
    (hout : GoodDict R out)
    (h : combineDict R o inP l out = .error e) : e = .invalidPropertyDict := by
  induction l generalizing out with
  | nil => cases h
  | cons kv l ih =>
    obtain ⟨k, p⟩ := kv
    unfold combineDict at h
    obtain ⟨u, hu, hku⟩ := hl (k, p) (by simp)
    rcases Exc.bind_error_iff.1 h with h | ⟨mid, hm, h⟩
    · unfold combineEntry at h
      cases hg : out.get? k with
      | none =>
        rw [hg] at h
        cases hd : combineEffDims inP k p with
        | none => rw [hd] at h; cases h; rfl
        | some d => rw [hd] at h; cases h
      | some r =>
        obtain ⟨⟨v, hv, hkv⟩, hrd⟩ := hout k r hg
        obtain ⟨b, hb⟩ := compatible_known hku hkv
        obtain ⟨rd, hrd⟩ := Option.isSome_iff_exists.1 hrd
        rw [hg] at h
        dsimp only at h hu
        rw [hu, hv] at h
        dsimp only at h
        rw [hb] at h
        simp only [Exc.ok_bind] at h
        cases b with
        | false => simp at h; exact h.symm
        | true =>
          simp only [Bool.not_true, Bool.false_eq_true, if_false] at h
          rw [hrd] at h
          cases hd : combineEffDims inP k p with
          | none => rw [hd] at h; cases h; rfl
          | some d =>
            rw [hd] at h
            dsimp only at h
            rcases Exc.bind_error_iff.1 h with h | ⟨_, _, h⟩
            · exact combineDims_error h
            · cases h
    · refine ih (fun kv hkv => hl kv (List.mem_cons_of_mem _ hkv)) ?_ h
      obtain ⟨e1, _, e3⟩ := combineEntry_ok hm
      intro n r hr
      by_cases hn : n = k
      · subst hn
        rcases e3 with ⟨_, r', g1, g2, _, g4, g5⟩ | ⟨r0, r', _, _, d, _, _, g0, g1, g2, _⟩
        · rw [g1] at hr; cases hr
          exact ⟨⟨u, g2.trans hu, hku⟩, g5⟩
        · rw [g1] at hr; cases hr
          subst g2
          exact ⟨(hout _ _ g0).1, rfl⟩
      · rw [e1 n hn] at hr
        exact hout n r hr

/-- **C27, errors.**  If two entries for one quantity, anywhere in the list, have
incompatible units, InvalidPropertyDictError is raised. -/
theorem incompatible_units_rejected (R : Registry) (o : SetOrder) (l : List PropDict) (inP : PropDict)
    (hk : KnownUnits R l) (n : String) (p q : QProps) (hpq : [p, q].Sublist (entriesOf l n))
    (u v : String) (hu : p.units = some u) (hv : q.units = some v)
    (hc : R.unitsAreCompatible u v = .ok false) :
    combineProperties R o l inP = .error .invalidPropertyDict := by
  cases h : combineProperties R o l inP with
  | ok res =>
    obtain ⟨_, _, h3⟩ := combined_properties_cover R o l inP res h
    obtain ⟨u', v', hu', hv', hc'⟩ := h3 n p q hpq
    rw [hu] at hu'; cases hu'
    rw [hv] at hv'; cases hv'
    rw [hc] at hc'; cases hc'
  | error e =>
    unfold combineProperties at h
    rw [combineLoop_eq] at h
    rw [combineDict_error _ ?_ ?_ h]
    · intro kv hkv
      obtain ⟨d, hd, hkv⟩ := List.mem_flatten.1 hkv
      exact hk d hd kv hkv
    · intro n r hr; cases hr

/-- Non-vacuity of C27: two dictionaries with a common quantity in different units. -/
example : Exc.test (combineProperties Demo.reg Demo.order
    [[("T", { dims := some ["z", "*"], units := some "K" })],
     [("h", { dims := some ["z"], units := some "m" }),
      ("T", { dims := some ["*", "y"], units := some "degC", aliasName := some "t" })]])
    (fun r => decide (r = [("T", { dims := some ["*", "z", "y"], units := some "K" }),
      ("h", { dims := some ["z"], units := some "m" })])) = true ∧
    Exc.failsWith (combineProperties Demo.reg Demo.order
      [[("T", { dims := some ["z", "*"], units := some "K" })], [],
       [("T", { dims := some ["*", "y"], units := some "m" })]]) .invalidPropertyDict = true := by
  decide +kernel

/-- The hypotheses of `incompatible_units_rejected` are satisfiable. -/
example : combineProperties Demo.reg Demo.order
    [[("T", { dims := some ["z"], units := some "K" })], [("T", { dims := some ["z"], units := some "m" })]] =
    .error .invalidPropertyDict := by
  refine incompatible_units_rejected Demo.reg Demo.order _ _ ?_ "T"
    { dims := some ["z"], units := some "K" } { dims := some ["z"], units := some "m" } ?_ "K" "m" rfl rfl ?_
  · intro d hd kv hkv
    simp only [List.mem_cons, List.not_mem_nil, or_false] at hd
    rcases hd with rfl | rfl <;> simp only [List.mem_cons, List.not_mem_nil, or_false] at hkv <;>
      subst hkv
    · exact ⟨"K", rfl, by decide +kernel⟩
    · exact ⟨"m", rfl, by decide +kernel⟩
  · exact List.Sublist.refl _
  · have : Exc.test (Demo.reg.unitsAreCompatible "K" "m") (fun b => !b) = true := by decide +kernel
    obtain ⟨b, hb, hf⟩ := Exc.test_ok this
    rw [hb]; simp at hf; rw [hf]

end Verif
