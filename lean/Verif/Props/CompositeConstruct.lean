import Mathlib.Data.List.Induction
import Verif.Props.CombineDims
import Verif.Props.Composite
/-!
# C66: which components can be composed

`combine_properties` succeeds exactly for entries that agree; a composite can be
constructed when the components agree and, beyond that, do not use one alias for
different quantities.
-/

namespace Verif

/-- Two entries for a quantity have given, known and compatible units. -/
def UnitsAgree (R : Registry) (p q : QProps) : Prop :=
  ∃ u v, p.units = some u ∧ q.units = some v ∧ R.unitsAreCompatible u v = .ok true

theorem UnitsAgree.symm {R : Registry} {p q : QProps} (h : UnitsAgree R p q) : UnitsAgree R q p := by
  obtain ⟨u, v, hu, hv, hc⟩ := h
  exact ⟨v, u, hv, hu, (units_compatible_equivalence R).2.1 _ _ _ hc⟩

theorem UnitsAgree.trans {R : Registry} {p q r : QProps} (h : UnitsAgree R p q) (h' : UnitsAgree R q r) :
    UnitsAgree R p r := by
  obtain ⟨u, v, hu, hv, hc⟩ := h
  obtain ⟨v', w, hv', hw, hc'⟩ := h'
  rw [hv] at hv'; injection hv' with hv'; subst hv'
  exact ⟨u, w, hu, hw, (units_compatible_equivalence R).2.2 _ _ _ hc hc'⟩

/-- The entries for a quantity can be merged: each has dims; the units agree; and each
entry either follows entries that all have a wildcard, or names the dims that the
entries before it name. -/
structure EntriesAgree (R : Registry) (inP : PropDict) (n : String) (es : List QProps) : Prop where
  dims : ∀ p ∈ es, ∃ d, AsksDims inP n p d
  units : es.Pairwise (UnitsAgree R)
  fit : ∀ pre p post, es = pre ++ p :: post → pre ≠ [] → ∀ d, AsksDims inP n p d →
    (∀ q ∈ pre, ∃ e, AsksDims inP n q e ∧ "*" ∈ e) ∨
    (∀ x, x ≠ "*" → (x ∈ d ↔ ∃ q ∈ pre, ∃ e, AsksDims inP n q e ∧ x ∈ e))

theorem entriesAgree_nil (R : Registry) (inP : PropDict) (n : String) : EntriesAgree R inP n [] :=
  ⟨fun _ h => (by cases h), List.Pairwise.nil, fun pre p post h => by simp at h⟩

/-- What the last entry has to satisfy. -/
structure LastAgrees (R : Registry) (inP : PropDict) (n : String) (es : List QProps) (p : QProps) : Prop where
  dims : ∃ d, AsksDims inP n p d
  units : ∀ q ∈ es, UnitsAgree R q p
  fit : es ≠ [] → ∀ d, AsksDims inP n p d →
    (∀ q ∈ es, ∃ e, AsksDims inP n q e ∧ "*" ∈ e) ∨
    (∀ x, x ≠ "*" → (x ∈ d ↔ ∃ q ∈ es, ∃ e, AsksDims inP n q e ∧ x ∈ e))

theorem entriesAgree_snoc {R : Registry} {inP : PropDict} {n : String} {es : List QProps} {p : QProps} :
    EntriesAgree R inP n (es ++ [p]) ↔ EntriesAgree R inP n es ∧ LastAgrees R inP n es p := by
  constructor
  · intro h
    have hu := List.pairwise_append.1 h.units
    refine ⟨⟨fun q hq => h.dims q (by simp [hq]), hu.1, ?_⟩,
      ⟨h.dims p (by simp), fun q hq => hu.2.2 q hq p (by simp), fun hne => h.fit es p [] rfl hne⟩⟩
    intro pre q post he
    exact h.fit pre q (post ++ [p]) (by rw [he]; simp)
  · rintro ⟨h, hl⟩
    refine ⟨?_, List.pairwise_append.2 ⟨h.units, List.pairwise_singleton _ _, ?_⟩, ?_⟩
    · intro q hq
      rcases List.mem_append.1 hq with hq | hq
      · exact h.dims q hq
      · rw [List.mem_singleton] at hq; subst hq; exact hl.dims
    · intro q hq r hr
      rw [List.mem_singleton] at hr; subst hr
      exact hl.units q hq
    · intro pre q post he
      rcases List.eq_nil_or_concat post with rfl | ⟨post', r, rfl⟩
      · have := List.append_inj' he rfl
        obtain ⟨rfl, h2⟩ := this
        injection h2 with h2; subst h2
        exact hl.fit
      · have he' : es ++ [p] = (pre ++ q :: post') ++ [r] := by rw [he]; simp
        obtain ⟨rfl, _⟩ := List.append_inj' he' rfl
        exact h.fit pre q post' rfl

theorem combineDict_append (R : Registry) (o : SetOrder) (inP : PropDict) (a b : PropDict) (out : PropDict) :
    combineDict R o inP (a ++ b) out = (combineDict R o inP a out >>= combineDict R o inP b) := by
  induction a generalizing out with
  | nil => rfl
  | cons kv a ih =>
    show combineDict R o inP ((kv.1, kv.2) :: (a ++ b)) out =
      (combineDict R o inP ((kv.1, kv.2) :: a) out >>= combineDict R o inP b)
    unfold combineDict
    cases combineEntry R o inP out kv.1 kv.2 with
    | error e => rfl
    | ok r => exact ih r

theorem entries_snoc (l : PropDict) (kv : String × QProps) (n : String) :
    entriesOf [l ++ [kv]] n = entriesOf [l] n ++ (if kv.1 = n then [kv.2] else []) := by
  unfold entriesOf
  simp only [List.flatten_cons, List.flatten_nil, List.append_nil, List.filterMap_append]
  congr 1
  by_cases h : kv.1 = n <;> simp [h]

theorem combineProperties_one (R : Registry) (o : SetOrder) (inP l : PropDict) :
    combineProperties R o [l] inP = combineDict R o inP l [] := by
  unfold combineProperties
  rw [combineLoop_eq]; simp

theorem combineEntry_iff {R : Registry} {o : SetOrder} {inP l out : PropDict}
    (h : combineDict R o inP l [] = .ok out) (k : String) (p : QProps)
    (hag : EntriesAgree R inP k (entriesOf [l] k)) :
    (∃ res, combineEntry R o inP out k p = .ok res) ↔ LastAgrees R inP k (entriesOf [l] k) p := by
  have h' := h
  rw [← combineProperties_one] at h'
  obtain ⟨c1, c2, _⟩ := combined_properties_cover R o [l] inP out h'
  cases hg : out.get? k with
  | none =>
    have hes : entriesOf [l] k = [] := by
      by_contra hne
      obtain ⟨q, hq⟩ := List.exists_mem_of_ne_nil _ hne
      have : k ∈ out.keys := (c1 k).2 ⟨l, by simp, Dict.mem_keys_of_mem (mem_entries.1 hq)⟩
      rw [Dict.get?_eq_none_iff] at hg
      exact hg this
    rw [hes]
    unfold combineEntry
    rw [hg]
    constructor
    · rintro ⟨res, hr⟩
      cases hd : combineEffDims inP k p with
      | none => rw [hd] at hr; cases hr
      | some d => exact ⟨⟨d, asksDims_iff.2 hd⟩, fun _ h => (by cases h), fun h => absurd rfl h⟩
    · intro hl
      obtain ⟨d, hd⟩ := hl.dims
      rw [asksDims_iff.1 hd]
      exact ⟨_, rfl⟩
  | some r =>
    obtain ⟨p0, ps, he, hu, _⟩ := c2 k r hg
    obtain ⟨d, hd, hd1, hd2⟩ := combined_dims_exact R o [l] inP out h' k r hg
    constructor
    · rintro ⟨res, hr⟩
      obtain ⟨_, _, e3⟩ := combineEntry_ok hr
      rcases e3 with ⟨g0, _⟩ | ⟨r0, _, u, v, d', d0, dp, g0, _, _, g3, g4, g5, g6, g7, g8⟩
      · rw [hg] at g0; cases g0
      · rw [hg] at g0; injection g0 with g0; subst g0
        rw [hd] at g6; injection g6 with g6; subst g6
        have hp0 : UnitsAgree R p0 p :=
          UnitsAgree.symm (p := p) (q := p0) ⟨u, v, g4, by rw [← hu]; exact g3, g5⟩
        refine ⟨⟨dp, asksDims_iff.2 g7⟩, ?_, ?_⟩
        · intro q hq
          rw [he] at hq
          have hpw := hag.units
          rw [he] at hpw
          rcases List.mem_cons.1 hq with rfl | hq
          · exact hp0
          · exact ((List.pairwise_cons.1 hpw).1 q hq).symm.trans hp0
        · intro _ e hea
          have := asksDims_iff.1 hea
          rw [g7] at this; injection this with this; subst this
          have hiff := (combine_dims_ok_iff o d dp).1 ⟨_, g8⟩
          by_cases hs : "*" ∈ d
          · exact Or.inl (hd2.1 hs)
          · right
            have hsn : SameNamed d dp := by
              rcases hiff with h | h | h
              · rw [h]; exact fun _ _ => Iff.rfl
              · exact absurd h hs
              · exact h.2
            intro x hx
            rw [← hsn x hx]; exact hd1 x hx
    · intro hl
      obtain ⟨dp, hdp⟩ := hl.dims
      obtain ⟨v, u, hv, hpu, hc⟩ := hl.units p0 (by rw [he]; simp)
      have hc' := (units_compatible_equivalence R).2.1 _ _ _ hc
      have hok : ∃ d', combineDims o d dp = .ok d' := by
        rw [combine_dims_ok_iff]
        by_cases hs : "*" ∈ d
        · exact Or.inr (Or.inl hs)
        · rcases hl.fit (by rw [he]; simp) dp hdp with hf | hf
          · exact absurd (hd2.2 hf) hs
          · refine Or.inr (Or.inr ⟨hs, fun x hx => ?_⟩)
            rw [hd1 x hx, hf x hx]
      obtain ⟨d', hd'⟩ := hok
      unfold combineEntry
      rw [hg]
      dsimp only
      rw [hpu, hu, hv]
      dsimp only
      rw [hc']
      simp only [Exc.ok_bind, Bool.not_true, Bool.false_eq_true, if_false]
      rw [asksDims_iff.1 hdp, hd]
      dsimp only
      rw [hd']
      exact ⟨_, rfl⟩

theorem combineDict_ok_iff (R : Registry) (o : SetOrder) (inP l : PropDict) :
    (∃ res, combineDict R o inP l [] = .ok res) ↔ ∀ n, EntriesAgree R inP n (entriesOf [l] n) := by
  induction l using List.reverseRecOn with
  | nil => exact ⟨fun _ n => entriesAgree_nil R inP n, fun _ => ⟨[], rfl⟩⟩
  | append_singleton l kv ih =>
    obtain ⟨k, p⟩ := kv
    constructor
    · rintro ⟨res, h⟩
      rw [combineDict_append] at h
      obtain ⟨mid, hm, h⟩ := Exc.bind_ok_iff.1 h
      have hall := ih.1 ⟨mid, hm⟩
      unfold combineDict at h
      obtain ⟨r, hr, _⟩ := Exc.bind_ok_iff.1 h
      intro n
      rw [entries_snoc]
      by_cases hn : k = n
      · subst hn
        simp only [if_true]
        exact entriesAgree_snoc.2 ⟨hall k, (combineEntry_iff hm k p (hall k)).1 ⟨r, hr⟩⟩
      · simp only [hn, if_false, List.append_nil]
        exact hall n
    · intro h
      have hall : ∀ n, EntriesAgree R inP n (entriesOf [l] n) := by
        intro n
        have := h n
        rw [entries_snoc] at this
        by_cases hn : k = n
        · subst hn
          simp only [if_true] at this
          exact (entriesAgree_snoc.1 this).1
        · simp only [hn, if_false, List.append_nil] at this
          exact this
      obtain ⟨mid, hm⟩ := ih.2 hall
      have hk := h k
      rw [entries_snoc] at hk
      simp only [if_true] at hk
      obtain ⟨r, hr⟩ := (combineEntry_iff hm k p (hall k)).2 (entriesAgree_snoc.1 hk).2
      rw [combineDict_append, hm, Exc.ok_bind]
      unfold combineDict
      rw [hr]
      exact ⟨r, rfl⟩

/-- **C66, exact condition.**  `combine_properties` succeeds if and only if, for every
quantity, the entries for it agree. -/
theorem combine_properties_ok_iff (R : Registry) (o : SetOrder) (l : List PropDict) (inP : PropDict) :
    (∃ res, combineProperties R o l inP = .ok res) ↔ ∀ n, EntriesAgree R inP n (entriesOf l n) := by
  have hent : ∀ n, entriesOf l n = entriesOf [l.flatten] n := by
    intro n; unfold entriesOf; simp
  unfold combineProperties
  rw [combineLoop_eq, combineDict_ok_iff]
  simp only [hent]

/-! ## Composites -/

/-- What a component asks for as inputs: its own dictionary, and one for the tracers. -/
def inputDicts (g : Tracers) (c : Class) : List PropDict :=
  c.inProps :: (if c.usesTracers then [tracerProps g c.prepend ((c.tracerDims.getD []).erase "tracer")] else [])

/-- All inputs that the components ask for, with their properties. -/
def inputEntries (g : Tracers) (cs : List Class) : PropDict := (cs.flatMap (inputDicts g)).flatten

/-- Two entries ask for the same dims: both have a wildcard, or both name the same. -/
def AskSameDims (d e : List String) : Prop := ("*" ∈ d ↔ "*" ∈ e) ∧ ("*" ∉ d → SameNamed d e)

/-- Units `u` passed through `f` and units `v` are known and compatible. -/
def UnitsFit (R : Registry) (f : String → String) (p q : QProps) : Prop :=
  ∃ u v a b, p.units = some u ∧ q.units = some v ∧ R.parse (f u) = some a ∧ R.parse v = some b ∧ a.dim = b.dim

/-- The components agree on the quantities they share, and declare no common
diagnostic.  Aliases are not mentioned: they are local to a component. -/
structure ComponentsAgree (R : Registry) (g : Tracers) (k : Kind) (cs : List Class) : Prop where
  tracerDims : ∀ c ∈ cs, c.usesTracers = true → ∃ td, c.tracerDims = some td ∧ "tracer" ∈ td
  inUnits : ∀ a ∈ inputEntries g cs, ∀ b ∈ inputEntries g cs, a.1 = b.1 → UnitsAgree R a.2 b.2
  inDims : ∀ a ∈ inputEntries g cs, ∀ b ∈ inputEntries g cs, a.1 = b.1 →
    ∀ d e, a.2.dims = some d → b.2.dims = some e → AskSameDims d e
  diagApart : cs.Pairwise fun c c' => ∀ n ∈ c.diagProps.keys, n ∉ c'.diagProps.keys
  diagUnits : ∀ a ∈ inputEntries g cs, ∀ c ∈ cs, ∀ b ∈ c.diagProps, a.1 = b.1 → UnitsFit R id a.2 b.2
  outUnits : k ≠ .diagnostic → ∀ c ∈ cs, ∀ a ∈ c.outProps, ∀ c' ∈ cs, ∀ b ∈ c'.outProps, a.1 = b.1 →
    UnitsAgree R a.2 b.2
  outDims : k ≠ .diagnostic → ∀ c ∈ cs, ∀ a ∈ c.outProps, ∀ c' ∈ cs, ∀ b ∈ c'.outProps, a.1 = b.1 →
    ∀ d e, AsksDims c.inProps a.1 a.2 d → AsksDims c'.inProps b.1 b.2 e → AskSameDims d e
  outRates : k ≠ .diagnostic → ∀ a ∈ inputEntries g cs, ∀ c ∈ cs, ∀ b ∈ c.outProps, a.1 = b.1 →
    UnitsFit R rateUnits a.2 b.2

/-- No alias stands for two quantities among the entries. -/
def AliasesApart (es : PropDict) : Prop :=
  ∀ a ∈ es, ∀ b ∈ es, ∀ s, a.2.aliasName = some s → b.2.aliasName = some s → a.1 = b.1

/-- The first entries for two quantities do not have the same alias. -/
def FirstAliasesApart (l : List PropDict) : Prop :=
  ∀ n m p ps q qs s, entriesOf l n = p :: ps → entriesOf l m = q :: qs → p.aliasName = some s →
    q.aliasName = some s → n = m

theorem aliasesDistinct_iff {d : PropDict} (hn : d.keys.Nodup) : AliasesDistinct d ↔ AliasesApart d := by
  unfold AliasesDistinct
  constructor
  · intro h
    induction d with
    | nil => intro a ha; cases ha
    | cons kv d ih =>
      rw [Dict.keys_cons, List.nodup_cons] at hn
      rw [List.filterMap_cons] at h
      have hin : ∀ s, kv.2.aliasName = some s → ∀ b ∈ d, b.2.aliasName ≠ some s := by
        intro s hs b hb hbs
        rw [hs] at h
        exact (List.nodup_cons.1 h).1 (List.mem_filterMap.2 ⟨b, hb, hbs⟩)
      have ih := ih hn.2 (by
        cases hs : kv.2.aliasName with
        | none => rw [hs] at h; exact h
        | some s => rw [hs] at h; exact (List.nodup_cons.1 h).2)
      intro a ha b hb s hsa hsb
      rcases List.mem_cons.1 ha with ha | ha <;> rcases List.mem_cons.1 hb with hb | hb
      · rw [ha, hb]
      · rw [ha] at hsa; exact absurd hsb (hin s hsa b hb)
      · rw [hb] at hsb; exact absurd hsa (hin s hsb a ha)
      · exact ih a ha b hb s hsa hsb
  · intro h
    induction d with
    | nil => exact List.nodup_nil
    | cons kv d ih =>
      rw [Dict.keys_cons, List.nodup_cons] at hn
      have ih := ih hn.2 (fun a ha b hb => h a (by simp [ha]) b (by simp [hb]))
      rw [List.filterMap_cons]
      cases hs : kv.2.aliasName with
      | none => exact ih
      | some s =>
        refine List.nodup_cons.2 ⟨fun hm => ?_, ih⟩
        obtain ⟨b, hb, hbs⟩ := List.mem_filterMap.1 hm
        have := h kv (by simp) b (by simp [hb]) s hs hbs
        exact hn.1 (by rw [this]; exact Dict.mem_keys_of_mem hb)

theorem combineEntry_nodup {R : Registry} {o : SetOrder} {inP out res : PropDict} {n : String} {p : QProps}
    (hn : out.keys.Nodup) (h : combineEntry R o inP out n p = .ok res) : res.keys.Nodup := by
  unfold combineEntry at h
  cases hg : out.get? n with
  | none =>
    rw [hg] at h
    cases hd : combineEffDims inP n p with
    | none => rw [hd] at h; cases h
    | some d => rw [hd] at h; injection h with h; subst h; exact Dict.nodup_keys_set hn _ _
  | some r =>
    rw [hg] at h
    dsimp only at h
    split at h
    · obtain ⟨ok, _, h⟩ := Exc.bind_ok_iff.1 h
      split at h
      · cases h
      · split at h
        · obtain ⟨d, _, h⟩ := Exc.bind_ok_iff.1 h
          injection h with h; subst h; exact Dict.nodup_keys_set hn _ _
        · cases h
        · cases h
    · cases h

theorem combineDict_nodup {R : Registry} {o : SetOrder} {inP : PropDict} (l : PropDict) {out res : PropDict}
    (hn : out.keys.Nodup) (h : combineDict R o inP l out = .ok res) : res.keys.Nodup := by
  induction l generalizing out with
  | nil => injection h with h; subst h; exact hn
  | cons kv l ih =>
    obtain ⟨k, p⟩ := kv
    unfold combineDict at h
    obtain ⟨mid, hm, h⟩ := Exc.bind_ok_iff.1 h
    exact ih (combineEntry_nodup hn hm) h

theorem combineProperties_nodup {R : Registry} {o : SetOrder} {l : List PropDict} {inP res : PropDict}
    (h : combineProperties R o l inP = .ok res) : res.keys.Nodup := by
  unfold combineProperties at h
  rw [combineLoop_eq] at h
  exact combineDict_nodup _ (out := []) List.nodup_nil h

theorem mem_entriesOf {l : List PropDict} {n : String} {p : QProps} : p ∈ entriesOf l n ↔ (n, p) ∈ l.flatten := by
  have : entriesOf l n = entriesOf [l.flatten] n := by unfold entriesOf; simp
  rw [this, mem_entries]

/-- An entry of the combined dictionary comes from an entry with the same units and alias. -/
theorem combined_entry {R : Registry} {o : SetOrder} {l : List PropDict} {inP res : PropDict}
    (h : combineProperties R o l inP = .ok res) {kv : String × QProps} (hkv : kv ∈ res) :
    ∃ p, (kv.1, p) ∈ l.flatten ∧ kv.2.units = p.units ∧ kv.2.aliasName = p.aliasName := by
  have hg := Dict.get?_of_mem (combineProperties_nodup h) (k := kv.1) (v := kv.2) hkv
  obtain ⟨p0, ps, he, hu, ha⟩ := (combined_properties_cover R o l inP res h).2.1 _ _ hg
  exact ⟨p0, mem_entriesOf.1 (by rw [he]; simp), hu, ha⟩

theorem aliases_combined {R : Registry} {o : SetOrder} {l : List PropDict} {inP res : PropDict}
    (h : combineProperties R o l inP = .ok res) : AliasesDistinct res ↔ FirstAliasesApart l := by
  rw [aliasesDistinct_iff (combineProperties_nodup h)]
  have hnd := combineProperties_nodup h
  obtain ⟨c1, c2, _⟩ := combined_properties_cover R o l inP res h
  constructor
  · intro ha n m p ps q qs s hn hm hp hq
    have hg : ∀ n p ps, entriesOf l n = p :: ps → ∃ r, (n, r) ∈ res ∧ r.aliasName = p.aliasName := by
      intro n p ps he
      have hk : n ∈ res.keys := by
        rw [c1]
        have : (n, p) ∈ l.flatten := mem_entriesOf.1 (by rw [he]; simp)
        obtain ⟨d, hd, hkv⟩ := List.mem_flatten.1 this
        exact ⟨d, hd, Dict.mem_keys_of_mem hkv⟩
      obtain ⟨r, hr⟩ := Dict.get?_of_mem_keys hk
      obtain ⟨p0, _, he', _, hal⟩ := c2 n r hr
      rw [he] at he'; injection he' with he' _; subst he'
      exact ⟨r, Dict.mem_of_get? hr, hal⟩
    obtain ⟨r, hr, hra⟩ := hg n p ps hn
    obtain ⟨r', hr', hra'⟩ := hg m q qs hm
    exact ha _ hr _ hr' s (hra.trans hp) (hra'.trans hq)
  · intro ha a ha' b hb s hsa hsb
    obtain ⟨p, ps, he, _, hal⟩ := c2 _ _ (Dict.get?_of_mem hnd (k := a.1) (v := a.2) ha')
    obtain ⟨q, qs, he', _, hal'⟩ := c2 _ _ (Dict.get?_of_mem hnd (k := b.1) (v := b.2) hb)
    exact ha _ _ p ps q qs s he he' (by rw [← hal]; exact hsa) (by rw [← hal']; exact hsb)

/-- Entries that agree pairwise can be merged. -/
theorem entriesAgree_of_pairs {R : Registry} {inP : PropDict} {n : String} {es : List QProps}
    (hd : ∀ p ∈ es, ∃ d, AsksDims inP n p d)
    (hu : ∀ p ∈ es, ∀ q ∈ es, UnitsAgree R p q)
    (hda : ∀ p ∈ es, ∀ q ∈ es, ∀ d e, AsksDims inP n p d → AsksDims inP n q e → AskSameDims d e) :
    EntriesAgree R inP n es := by
  refine ⟨hd, List.pairwise_of_forall_mem_list fun p hp q hq => hu p hp q hq, ?_⟩
  intro pre p post he hne d hpd
  have hpm : p ∈ es := by rw [he]; simp
  have hsub : ∀ q ∈ pre, q ∈ es := fun q hq => by rw [he]; simp [hq]
  by_cases hs : "*" ∈ d
  · left
    intro q hq
    obtain ⟨e, hqe⟩ := hd q (hsub q hq)
    exact ⟨e, hqe, (hda p hpm q (hsub q hq) d e hpd hqe).1.1 hs⟩
  · right
    intro x hx
    constructor
    · intro hxd
      obtain ⟨q, hq⟩ := List.exists_mem_of_ne_nil _ hne
      obtain ⟨e, hqe⟩ := hd q (hsub q hq)
      exact ⟨q, hq, e, hqe, ((hda p hpm q (hsub q hq) d e hpd hqe).2 hs x hx).1 hxd⟩
    · rintro ⟨q, hq, e, hqe, hxe⟩
      exact ((hda p hpm q (hsub q hq) d e hpd hqe).2 hs x hx).2 hxe

theorem AskSameDims.symm {d e : List String} (h : AskSameDims d e) : AskSameDims e d :=
  ⟨h.1.symm, fun he x hx => (h.2 (fun hd => he (h.1.1 hd)) x hx).symm⟩

theorem AskSameDims.trans {d e f : List String} (h : AskSameDims d e) (h' : AskSameDims e f) : AskSameDims d f :=
  ⟨h.1.trans h'.1, fun hd x hx => (h.2 hd x hx).trans (h'.2 (fun he => hd (h.1.2 he)) x hx)⟩

/-- Merged dims agree with every entry, if the entries agree pairwise. -/
theorem merged_askSame {R : Registry} {o : SetOrder} {l : List PropDict} {inP res : PropDict}
    (h : combineProperties R o l inP = .ok res) {n : String} {r : QProps} (hr : res.get? n = some r)
    {d : List String} (hrd : r.dims = some d)
    (hda : ∀ p ∈ entriesOf l n, ∀ q ∈ entriesOf l n, ∀ d e, AsksDims inP n p d → AsksDims inP n q e →
      AskSameDims d e)
    {p : QProps} (hp : p ∈ entriesOf l n) {e : List String} (he : AsksDims inP n p e) : AskSameDims d e := by
  obtain ⟨d', hd', h1, h2⟩ := combined_dims_exact R o l inP res h n r hr
  rw [hrd] at hd'; injection hd' with hd'; subst hd'
  have hasks := (combine_properties_ok_iff R o l inP).1 ⟨res, h⟩ n
  constructor
  · rw [h2]
    constructor
    · intro hh
      obtain ⟨e', he', hs⟩ := hh p hp
      rw [he.unique he']; exact hs
    · intro hs q hq
      obtain ⟨e', he'⟩ := hasks.dims q hq
      exact ⟨e', he', (hda p hp q hq e e' he he').1.1 hs⟩
  · intro hns x hx
    rw [h1 x hx]
    have hne : "*" ∉ e := by
      intro hs
      apply hns
      rw [h2]
      intro q hq
      obtain ⟨e', he'⟩ := hasks.dims q hq
      exact ⟨e', he', (hda p hp q hq e e' he he').1.1 hs⟩
    constructor
    · rintro ⟨q, hq, e', he', hxe⟩
      exact ((hda p hp q hq e e' he he').2 hne x hx).2 hxe
    · intro hxe; exact ⟨p, hp, e, he, hxe⟩

theorem inputContribution_eq {g : Tracers} {c : Class}
    (h : c.usesTracers = true → ∃ td, c.tracerDims = some td ∧ "tracer" ∈ td) :
    inputContribution g c = .ok (inputDicts g c) := by
  unfold inputContribution inputDicts
  cases hu : c.usesTracers with
  | false => rfl
  | true =>
    obtain ⟨td, h1, h2⟩ := h hu
    simp [h1, h2]

theorem mapM_of_ok {α β : Type} {f : α → Except Err β} {F : α → β} (l : List α) (h : ∀ a ∈ l, f a = .ok (F a)) :
    l.mapM f = .ok (l.map F) := by
  induction l with
  | nil => rfl
  | cons a l ih =>
    rw [List.mapM_cons, h a (by simp), ih (fun b hb => h b (by simp [hb]))]
    rfl

theorem compositeDiagLoop_isOk (cs : List Class) (out : PropDict)
    (hapart : cs.Pairwise fun c c' => ∀ n ∈ c.diagProps.keys, n ∉ c'.diagProps.keys)
    (hout : ∀ c ∈ cs, ∀ n ∈ c.diagProps.keys, n ∉ out.keys)
    (hnd : ∀ c ∈ cs, c.diagProps.keys.Nodup) (hno : out.keys.Nodup) :
    ∃ res, compositeDiagLoop cs out = .ok res ∧ res.keys.Nodup ∧
      (∀ kv ∈ res, kv ∈ out ∨ ∃ c ∈ cs, kv ∈ c.diagProps) ∧
      (∀ c ∈ cs, ∀ kv ∈ c.diagProps, kv ∈ res) ∧ (∀ kv ∈ out, kv ∈ res) := by
  induction cs generalizing out with
  | nil => exact ⟨out, rfl, hno, fun kv h => Or.inl h, fun _ h => (by cases h), fun _ h => h⟩
  | cons c cs ih =>
    rw [List.pairwise_cons] at hapart
    have hc := hnd c (by simp)
    have hA : ∀ c' ∈ cs, ∀ n ∈ c'.diagProps.keys, n ∉ (out.update c.diagProps).keys := by
      intro c' hc' n hn hm
      rcases (Dict.mem_keys_update _ _ _).1 hm with hm | hm
      · exact hout c' (by simp [hc']) n hn hm
      · exact hapart.1 c' hc' n hm hn
    have hB : (out.update c.diagProps).keys.Nodup := Dict.nodup_keys_update hno _
    obtain ⟨res, h1, h2, h3, h4, h5⟩ := ih (out.update c.diagProps) hapart.2 hA
      (fun c' hc' => hnd c' (by simp [hc'])) hB
    have hup : ∀ kv, kv ∈ out.update c.diagProps ↔ kv ∈ c.diagProps ∨ kv ∈ out := by
      intro kv
      constructor
      · intro h
        have hg := Dict.get?_of_mem hB (k := kv.1) (v := kv.2) h
        rw [Dict.get?_update _ _ hc] at hg
        cases hd : c.diagProps.get? kv.1 with
        | none => rw [hd] at hg; exact Or.inr (Dict.mem_of_get? hg)
        | some v =>
          rw [hd] at hg
          simp at hg; subst hg
          exact Or.inl (Dict.mem_of_get? hd)
      · intro h
        refine Dict.mem_of_get? (k := kv.1) (v := kv.2) ?_
        rw [Dict.get?_update _ _ hc]
        rcases h with h | h
        · rw [Dict.get?_of_mem hc (k := kv.1) (v := kv.2) h]; rfl
        · have : c.diagProps.get? kv.1 = none := by
            rw [Dict.get?_eq_none_iff]
            exact fun hn => hout c (by simp) _ hn (Dict.mem_keys_of_mem h)
          rw [this]
          exact Dict.get?_of_mem hno (k := kv.1) (v := kv.2) h
    refine ⟨res, ?_, h2, ?_, ?_, fun kv hkv => h5 kv ((hup kv).2 (Or.inr hkv))⟩
    · unfold compositeDiagLoop ensureNoSharedKeys
      rw [if_neg ?_, Exc.ok_bind, h1]
      rw [List.any_eq_true]
      rintro ⟨n, hn, hm⟩
      exact hout c (by simp) n hn (by simpa using hm)
    · intro kv hkv
      rcases h3 kv hkv with h | ⟨c', hc', h⟩
      · rcases (hup kv).1 h with h | h
        · exact Or.inr ⟨c, by simp, h⟩
        · exact Or.inl h
      · exact Or.inr ⟨c', by simp [hc'], h⟩
    · intro c' hc' kv hkv
      rcases List.mem_cons.1 hc' with rfl | hc'
      · exact h5 kv ((hup kv).2 (Or.inl hkv))
      · exact h4 c' hc' kv hkv

theorem acceptedBy_of_mayJoin {k : Kind} {o : Obj} (h : MayJoin k o) : acceptedBy k o = true := by
  unfold acceptedBy
  rcases h with h | ⟨rfl, h⟩
  · cases k <;> simp [h]
  · simp [h]

/-- **C66, aliases.**  Components that are valid by themselves and agree can be composed if
and only if no alias is given to different quantities, where only the first component
with a quantity counts; otherwise InvalidPropertyDictError is raised. -/
theorem agreeing_components_compose_iff (R : Registry) (o : SetOrder) (g : Tracers) (k : Kind)
    (cs : List (Class × Obj)) (hk : k ≠ .stepper)
    (hobj : ∀ c ∈ cs, MayJoin k c.2)
    (hkind : k ≠ .diagnostic → ∀ c ∈ cs, c.1.kind ≠ .diagnostic)
    (hvalid : ∀ c ∈ cs, ValidProps R c.1)
    (hnd : ∀ c ∈ cs, c.1.diagProps.keys.Nodup)
    (hag : ComponentsAgree R g k (cs.map (·.1))) :
    ((∃ c, compositeConstruct R o g k cs = .ok c) ↔
      FirstAliasesApart ((cs.map (·.1)).flatMap (inputDicts g)) ∧
      (k ≠ .diagnostic → FirstAliasesApart ((cs.map (·.1)).map (·.outProps))) ∧
      AliasesApart ((cs.map (·.1)).map (·.diagProps)).flatten) ∧
    ((¬ ∃ c, compositeConstruct R o g k cs = .ok c) →
      compositeConstruct R o g k cs = .error .invalidPropertyDict) := by
  -- inputs
  have hind : ∀ kv ∈ inputEntries g (cs.map (·.1)), kv.2.dims.isSome := by
    intro kv hkv
    unfold inputEntries at hkv
    obtain ⟨d, hd, hkv⟩ := List.mem_flatten.1 hkv
    obtain ⟨c, hc, hd⟩ := List.mem_flatMap.1 hd
    obtain ⟨c, hc', rfl⟩ := List.mem_map.1 hc
    unfold inputDicts at hd
    rcases List.mem_cons.1 hd with rfl | hd
    · exact ((hvalid _ hc').inputs kv hkv).1
    · split at hd
      · rw [List.mem_singleton] at hd; subst hd
        unfold tracerProps Dict.mapVal at hkv
        obtain ⟨x, _, rfl⟩ := List.mem_map.1 hkv
        rfl
      · cases hd
  have hinA : ∀ n p d, (n, p) ∈ inputEntries g (cs.map (·.1)) → AsksDims [] n p d → p.dims = some d := by
    intro n p d _ h
    rcases h with h | ⟨_, ip, h, _⟩
    · exact h
    · cases h
  have hinag : ∀ p q n, (n, p) ∈ inputEntries g (cs.map (·.1)) → (n, q) ∈ inputEntries g (cs.map (·.1)) →
      ∀ d e, AsksDims [] n p d → AsksDims [] n q e → AskSameDims d e := by
    intro p q n hp hq d e hd he
    exact hag.inDims _ hp _ hq rfl d e (hinA _ _ _ hp hd) (hinA _ _ _ hq he)
  obtain ⟨inP, hinP⟩ := (combine_properties_ok_iff R o ((cs.map (·.1)).flatMap (inputDicts g)) []).2 (by
    intro n
    refine entriesAgree_of_pairs ?_ ?_ ?_
    · intro p hp
      obtain ⟨d, hd⟩ := Option.isSome_iff_exists.1 (hind _ (mem_entriesOf.1 hp))
      exact ⟨d, Or.inl hd⟩
    · intro p hp q hq
      exact hag.inUnits _ (mem_entriesOf.1 hp) _ (mem_entriesOf.1 hq) rfl
    · intro p hp q hq
      exact hinag p q n (mem_entriesOf.1 hp) (mem_entriesOf.1 hq))
  have hcomb : combineInputs R o g (cs.map (·.1)) = .ok inP := by
    unfold combineInputs
    rw [mapM_of_ok _ (fun c hc => inputContribution_eq (hag.tracerDims c hc)), Exc.ok_bind]
    rw [← List.flatMap_def]; exact hinP
  have hinEntry : ∀ kv ∈ inP, ∃ p, (kv.1, p) ∈ inputEntries g (cs.map (·.1)) ∧ kv.2.units = p.units :=
    fun kv hkv => let ⟨p, h1, h2, _⟩ := combined_entry hinP hkv; ⟨p, h1, h2⟩
  have hinKey : ∀ c ∈ cs, ∀ n ∈ c.1.inProps.keys, n ∈ inP.keys := by
    intro c hc n hn
    rw [(combined_properties_cover R o _ _ inP hinP).1]
    exact ⟨c.1.inProps, List.mem_flatMap.2 ⟨c.1, List.mem_map.2 ⟨c, hc, rfl⟩, by simp [inputDicts]⟩, hn⟩
  have hinProps : ∀ kv ∈ inP, kv.2.dims.isSome ∧ kv.2.units.isSome := by
    intro kv hkv
    have hg := Dict.get?_of_mem (combineProperties_nodup hinP) (k := kv.1) (v := kv.2) hkv
    obtain ⟨d, hd, _⟩ := combined_dims_exact R o _ _ inP hinP _ _ hg
    obtain ⟨p, hp, hu⟩ := hinEntry kv hkv
    obtain ⟨u, _, hpu, _⟩ := hag.inUnits _ hp _ hp rfl
    exact ⟨by rw [hd]; rfl, by rw [hu]; dsimp only at hpu; rw [hpu]; rfl⟩
  -- diagnostics
  have hnd' : ∀ c ∈ cs.map (·.1), c.diagProps.keys.Nodup := by
    intro c hc
    obtain ⟨c, hc', rfl⟩ := List.mem_map.1 hc
    exact hnd c hc'
  obtain ⟨diag, hdl, hdn, hdm, hdin⟩ := compositeDiagLoop_isOk (cs.map (·.1)) [] hag.diagApart
    (fun _ _ _ _ h => by cases h) hnd' List.nodup_nil
  have hdm : ∀ kv ∈ diag, ∃ c ∈ cs, kv ∈ c.1.diagProps := by
    intro kv hkv
    rcases hdm kv hkv with h | ⟨c, hc, h⟩
    · cases h
    · obtain ⟨c, hc', rfl⟩ := List.mem_map.1 hc
      exact ⟨c, hc', h⟩
  have hdesc : Described inP diag := by
    intro kv hkv
    obtain ⟨c, hc, h⟩ := hdm kv hkv
    obtain ⟨h1, h2⟩ := (hvalid c hc).diag kv h
    exact ⟨h1, h2.imp_right (hinKey c hc _)⟩
  have hdiag : compositeDiagProps (cs.map (·.1)) inP = .ok diag := by
    unfold compositeDiagProps
    rw [hdl, Exc.ok_bind, if_pos]
    exact fun kv hkv => (hdesc kv hkv).2
  have hdfit : ∀ kv ∈ diag, ∀ ip, inP.get? kv.1 = some ip → UnitsFit R id ip kv.2 := by
    intro kv hkv ip hip
    obtain ⟨c, hc, h⟩ := hdm kv hkv
    obtain ⟨p, hp, hu⟩ := hinEntry _ (Dict.mem_of_get? hip)
    obtain ⟨u, v, a, b, f1, f2⟩ := hag.diagUnits _ hp c.1 (List.mem_map.2 ⟨c, hc, rfl⟩) kv h rfl
    exact ⟨u, v, a, b, hu.trans f1, f2⟩
  have hdalias : AliasesDistinct diag ↔ AliasesApart ((cs.map (·.1)).map (·.diagProps)).flatten := by
    rw [aliasesDistinct_iff hdn]
    constructor
    · intro h a ha b hb
      have hin : ∀ a ∈ ((cs.map (·.1)).map (·.diagProps)).flatten, a ∈ diag := by
        intro a ha
        obtain ⟨d, hd, ha⟩ := List.mem_flatten.1 ha
        obtain ⟨c, hc, rfl⟩ := List.mem_map.1 hd
        exact hdin.1 c hc a ha
      exact h a (hin a ha) b (hin b hb)
    · intro h a ha b hb
      obtain ⟨c, hc, h1⟩ := hdm a ha
      obtain ⟨c', hc', h2⟩ := hdm b hb
      exact h a (List.mem_flatten.2 ⟨_, List.mem_map.2 ⟨c.1, List.mem_map.2 ⟨c, hc, rfl⟩, rfl⟩, h1⟩)
        b (List.mem_flatten.2 ⟨_, List.mem_map.2 ⟨c'.1, List.mem_map.2 ⟨c', hc', rfl⟩, rfl⟩, h2⟩)
  -- tendencies
  have htend : ∃ tend, (if k = .diagnostic then .ok [] else combineTendencies R o (cs.map (·.1)) inP) =
      (.ok tend : Except Err PropDict) ∧ (k ≠ .diagnostic → Described inP tend ∧
        (AliasesDistinct tend ↔ FirstAliasesApart ((cs.map (·.1)).map (·.outProps))) ∧
        ∀ kv ∈ tend, ∀ ip, inP.get? kv.1 = some ip → UnitsFit R rateUnits ip kv.2) := by
    by_cases hkd : k = .diagnostic
    · exact ⟨[], by rw [if_pos hkd], fun h => absurd hkd h⟩
    have hmem : ∀ n p, (n, p) ∈ ((cs.map (·.1)).map (·.outProps)).flatten → ∃ c ∈ cs, (n, p) ∈ c.1.outProps := by
      intro n p h
      obtain ⟨d, hd, h⟩ := List.mem_flatten.1 h
      obtain ⟨c, hc, rfl⟩ := List.mem_map.1 hd
      obtain ⟨c, hc', rfl⟩ := List.mem_map.1 hc
      exact ⟨c, hc', h⟩
    -- the dims a tendency asks for in the composite agree with those in its component
    have hown : ∀ c ∈ cs, ∀ n p, (n, p) ∈ c.1.outProps →
        ∃ d e, AsksDims c.1.inProps n p d ∧ AsksDims inP n p e ∧ AskSameDims e d := by
      intro c hc n p hp
      cases hpd : p.dims with
      | some d =>
        exact ⟨d, d, Or.inl hpd, Or.inl hpd, ⟨Iff.rfl, fun _ _ _ => Iff.rfl⟩⟩
      | none =>
        have hkey : n ∈ c.1.inProps.keys := by
          have := ((hvalid c hc).out (hkind hkd c hc) (n, p) hp).2
          dsimp only at this
          rw [hpd] at this
          simpa using this
        obtain ⟨ip, hip⟩ := Dict.get?_of_mem_keys hkey
        obtain ⟨d, hd⟩ := Option.isSome_iff_exists.1 ((hvalid c hc).inputs _ (Dict.mem_of_get? hip)).1
        obtain ⟨r, hr⟩ := Dict.get?_of_mem_keys (hinKey c hc n hkey)
        obtain ⟨e, he, _⟩ := combined_dims_exact R o _ _ inP hinP _ _ hr
        refine ⟨d, e, Or.inr ⟨hpd, ip, hip, hd⟩, Or.inr ⟨hpd, r, hr, he⟩, ?_⟩
        refine merged_askSame hinP hr he ?_ (p := ip) (mem_entriesOf.2 ?_) (Or.inl hd)
        · intro p hp q hq
          exact hinag p q n (mem_entriesOf.1 hp) (mem_entriesOf.1 hq)
        · exact List.mem_flatten.2 ⟨c.1.inProps, List.mem_flatMap.2
            ⟨c.1, List.mem_map.2 ⟨c, hc, rfl⟩, by simp [inputDicts]⟩, Dict.mem_of_get? hip⟩
    obtain ⟨tend, ht⟩ := (combine_properties_ok_iff R o ((cs.map (·.1)).map (·.outProps)) inP).2 (by
      intro n
      refine entriesAgree_of_pairs ?_ ?_ ?_
      · intro p hp
        obtain ⟨c, hc, h⟩ := hmem n p (mem_entriesOf.1 hp)
        obtain ⟨_, e, _, he, _⟩ := hown c hc n p h
        exact ⟨e, he⟩
      · intro p hp q hq
        obtain ⟨c, hc, h⟩ := hmem n p (mem_entriesOf.1 hp)
        obtain ⟨c', hc', h'⟩ := hmem n q (mem_entriesOf.1 hq)
        exact hag.outUnits hkd c.1 (List.mem_map.2 ⟨c, hc, rfl⟩) _ h c'.1 (List.mem_map.2 ⟨c', hc', rfl⟩) _ h' rfl
      · intro p hp q hq d e hd he
        obtain ⟨c, hc, h⟩ := hmem n p (mem_entriesOf.1 hp)
        obtain ⟨c', hc', h'⟩ := hmem n q (mem_entriesOf.1 hq)
        obtain ⟨d1, e1, a1, b1, g1⟩ := hown c hc n p h
        obtain ⟨d2, e2, a2, b2, g2⟩ := hown c' hc' n q h'
        rw [hd.unique b1, he.unique b2]
        exact g1.trans ((hag.outDims hkd c.1 (List.mem_map.2 ⟨c, hc, rfl⟩) _ h c'.1
          (List.mem_map.2 ⟨c', hc', rfl⟩) _ h' rfl d1 d2 a1 a2).trans g2.symm))
    refine ⟨tend, by rw [if_neg hkd]; exact ht, fun _ => ⟨?_, aliases_combined ht, ?_⟩⟩
    · intro kv hkv
      have hg := Dict.get?_of_mem (combineProperties_nodup ht) (k := kv.1) (v := kv.2) hkv
      obtain ⟨d, hd, _⟩ := combined_dims_exact R o _ _ tend ht _ _ hg
      obtain ⟨p, hp, hu, _⟩ := combined_entry ht hkv
      obtain ⟨c, hc, h⟩ := hmem _ _ hp
      have := ((hvalid c hc).out (hkind hkd c hc) _ h).1
      exact ⟨by rw [hu]; exact this, Or.inl (by rw [hd]; rfl)⟩
    · intro kv hkv ip hip
      obtain ⟨q, hq, hqu, _⟩ := combined_entry ht hkv
      obtain ⟨c, hc, h⟩ := hmem _ _ hq
      obtain ⟨p, hp, hu⟩ := hinEntry _ (Dict.mem_of_get? hip)
      obtain ⟨u, v, a, b, f1, f2, f3⟩ := hag.outRates hkd _ hp c.1 (List.mem_map.2 ⟨c, hc, rfl⟩) _ h rfl
      exact ⟨u, v, a, b, hu.trans f1, hqu.trans f2, f3⟩
  obtain ⟨tend, ht, htp⟩ := htend
  have hcompat : ∀ (f : String → String) (props : PropDict),
      (∀ kv ∈ props, ∀ ip, inP.get? kv.1 = some ip → UnitsFit R f ip kv.2) →
      CompatibleWith R f inP props ∧ UnitsKnown R f inP props := by
    intro f props h
    constructor
    · intro kv hkv ip iu u h1 h2 h3
      obtain ⟨u', v', a, b, g1, g2, g3⟩ := h kv hkv ip h1
      rw [h2] at g1; injection g1 with g1; subst g1
      rw [h3] at g2; injection g2 with g2; subst g2
      exact ⟨a, b, g3⟩
    · intro kv hkv ip iu u h1 h2 h3
      obtain ⟨u', v', a, b, g1, g2, g3, g4, _⟩ := h kv hkv ip h1
      rw [h2] at g1; injection g1 with g1; subst g1
      rw [h3] at g2; injection g2 with g2; subst g2
      rw [g3, g4]; exact ⟨rfl, rfl⟩
  have hfac : outFactor k = rateUnits := by cases k <;> first | rfl | exact absurd rfl hk
  have hv : ValidProps R { kind := k, inProps := inP, outProps := tend, diagProps := diag } ↔
      FirstAliasesApart ((cs.map (·.1)).flatMap (inputDicts g)) ∧
      (k ≠ .diagnostic → FirstAliasesApart ((cs.map (·.1)).map (·.outProps))) ∧
      AliasesApart ((cs.map (·.1)).map (·.diagProps)).flatten := by
    constructor
    · intro h
      exact ⟨(aliases_combined hinP).1 h.inAlias, fun hd => (htp hd).2.1.1 (h.outAlias hd), hdalias.1 h.diagAlias⟩
    · rintro ⟨h1, h2, h3⟩
      exact ⟨hinProps, (aliases_combined hinP).2 h1, hdesc, hdalias.2 h3, (hcompat _ _ hdfit).1,
        fun h => (htp h).1, fun h => (htp h).2.1.2 (h2 h), fun h => by rw [hfac]; exact (hcompat _ _ (htp h).2.2).1⟩
  have hrun := decides_runCheckers (R := R) (c := { kind := k, inProps := inP, outProps := tend, diagProps := diag })
      (hcompat _ _ hdfit).2 (fun h => by rw [hfac]; exact (hcompat _ _ (htp h).2.2).2)
  have hcon : compositeConstruct R o g k cs =
      (runCheckers R { kind := k, inProps := inP, outProps := tend, diagProps := diag } >>= fun _ =>
        .ok { kind := k, inProps := inP, outProps := tend, diagProps := diag }) := by
    unfold compositeConstruct
    rw [if_pos (List.all_eq_true.2 fun c hc => acceptedBy_of_mayJoin (hobj c hc)), hcomb, Exc.ok_bind, hdiag, Exc.ok_bind, ht, Exc.ok_bind]
  rw [hcon, ← hv]
  rcases hrun with ⟨h, hvp⟩ | ⟨h, hvp⟩
  · rw [h]
    exact ⟨⟨fun _ => hvp, fun _ => ⟨_, rfl⟩⟩, fun hn => absurd ⟨_, rfl⟩ hn⟩
  · rw [h]
    refine ⟨⟨fun ⟨c, hc⟩ => (by cases hc), fun h => absurd h hvp⟩, fun _ => rfl⟩

/-- **C66 (partial).**  Components that are valid by themselves and agree can be composed,
if no alias stands for different quantities in different components.  Missing: the
general case, in which the claim is false (`composite_alias_clash`). -/
theorem agreeing_components_compose_partial (R : Registry) (o : SetOrder) (g : Tracers) (k : Kind)
    (cs : List (Class × Obj)) (hk : k ≠ .stepper)
    (hobj : ∀ c ∈ cs, MayJoin k c.2)
    (hkind : k ≠ .diagnostic → ∀ c ∈ cs, c.1.kind ≠ .diagnostic)
    (hvalid : ∀ c ∈ cs, ValidProps R c.1)
    (hnd : ∀ c ∈ cs, c.1.diagProps.keys.Nodup)
    (hag : ComponentsAgree R g k (cs.map (·.1)))
    (hain : AliasesApart (inputEntries g (cs.map (·.1))))
    (haout : AliasesApart ((cs.map (·.1)).map (·.outProps)).flatten)
    (hadiag : AliasesApart ((cs.map (·.1)).map (·.diagProps)).flatten) :
    ∃ c, compositeConstruct R o g k cs = .ok c := by
  have hfirst : ∀ l : List PropDict, AliasesApart l.flatten → FirstAliasesApart l := by
    intro l h n m p ps q qs s hn hm hp hq
    exact h (n, p) (mem_entriesOf.1 (by rw [hn]; simp)) (m, q) (mem_entriesOf.1 (by rw [hm]; simp)) s hp hq
  exact (agreeing_components_compose_iff R o g k cs hk hobj hkind hvalid hnd hag).1.2
    ⟨hfirst _ hain, fun _ => hfirst _ haout, hadiag⟩

/-- Counterexample to C66: components that are valid by themselves and agree, but use the
same alias for different inputs, cannot be composed. -/
theorem composite_alias_clash (R : Registry) (o : SetOrder) (g : Tracers) (k : Kind)
    (cs : List (Class × Obj)) (hk : k ≠ .stepper)
    (hobj : ∀ c ∈ cs, MayJoin k c.2)
    (hkind : k ≠ .diagnostic → ∀ c ∈ cs, c.1.kind ≠ .diagnostic)
    (hvalid : ∀ c ∈ cs, ValidProps R c.1)
    (hnd : ∀ c ∈ cs, c.1.diagProps.keys.Nodup)
    (hag : ComponentsAgree R g k (cs.map (·.1)))
    (c c' : Class × Obj) (hc : c ∈ cs) (hc' : c' ∈ cs) (n m s : String) (p q : QProps) (hnm : n ≠ m)
    (hp : c.1.inProps.get? n = some p) (hq : c'.1.inProps.get? m = some q)
    (hn : ∀ e ∈ inputEntries g (cs.map (·.1)), e.1 = n → e.2.aliasName = some s)
    (hm : ∀ e ∈ inputEntries g (cs.map (·.1)), e.1 = m → e.2.aliasName = some s) :
    compositeConstruct R o g k cs = .error .invalidPropertyDict := by
  obtain ⟨hiff, herr⟩ := agreeing_components_compose_iff R o g k cs hk hobj hkind hvalid hnd hag
  refine herr fun hok => hnm ?_
  have hex : ∀ (c : Class × Obj), c ∈ cs → ∀ n p, c.1.inProps.get? n = some p →
      ∃ p0 ps, entriesOf ((cs.map (·.1)).flatMap (inputDicts g)) n = p0 :: ps := by
    intro c hc n p hp
    refine List.exists_cons_of_ne_nil fun he => ?_
    have : p ∈ entriesOf ((cs.map (·.1)).flatMap (inputDicts g)) n :=
      mem_entriesOf.2 (List.mem_flatten.2 ⟨c.1.inProps, List.mem_flatMap.2
        ⟨c.1, List.mem_map.2 ⟨c, hc, rfl⟩, by simp [inputDicts]⟩, Dict.mem_of_get? hp⟩)
    rw [he] at this; cases this
  obtain ⟨p0, ps, hp0⟩ := hex c hc n p hp
  obtain ⟨q0, qs, hq0⟩ := hex c' hc' m q hq
  exact (hiff.1 hok).1 n m p0 ps q0 qs s hp0 hq0
    (hn (n, p0) (mem_entriesOf.1 (by rw [hp0]; simp)) rfl)
    (hm (m, q0) (mem_entriesOf.1 (by rw [hq0]; simp)) rfl)

/-! ## Non-vacuity -/

/-- A component with a shared input and tendency `T` and one input of its own. -/
def Demo.aliasCls (n : String) (al : Option String) : Class :=
  { kind := .tendency
    inProps := [("T", { dims := some ["*"], units := some "K" }),
      (n, { dims := some ["z"], units := some "m", aliasName := al })]
    outProps := [("T", { units := some "K s^-1" })]
    diagProps := [("d" ++ n, { dims := some ["z"], units := some "m" })] }

def Demo.aliasComps (a b : Option String) : List (Class × Obj) :=
  [(Demo.aliasCls "x" a, Demo.tendObj), (Demo.aliasCls "y" b, Demo.tendObj)]

theorem Demo.aliasComps_agree (a b : Option String) :
    ComponentsAgree Demo.reg {} .tendency ((Demo.aliasComps a b).map (·.1)) ∧
    (∀ c ∈ Demo.aliasComps a b, ValidProps Demo.reg c.1) ∧
    (∀ c ∈ Demo.aliasComps a b, MayJoin .tendency c.2) ∧
    (∀ c ∈ Demo.aliasComps a b, c.1.diagProps.keys.Nodup) := by
  have hc : ∀ u ∈ ["K", "m", "K s^-1"], Demo.reg.unitsAreCompatible u u = .ok true := by
    intro u hu
    have : ∀ u ∈ ["K", "m", "K s^-1"], Exc.test (Demo.reg.unitsAreCompatible u u) (fun b => b) = true := by
      decide +kernel
    obtain ⟨b, hb, hf⟩ := Exc.test_ok (this u hu)
    rw [hb, hf]
  have hu : ∀ u ∈ ["K", "m", "K s^-1"], ∀ p q : QProps, p.units = some u → q.units = some u → UnitsAgree Demo.reg p q :=
    fun u hm p q hp hq => ⟨u, u, hp, hq, hc u hm⟩
  have hK : "K" ∈ ["K", "m", "K s^-1"] := by simp
  have hm : "m" ∈ ["K", "m", "K s^-1"] := by simp
  have hr : ∃ a b, Demo.reg.parse (rateUnits "K") = some a ∧ Demo.reg.parse "K s^-1" = some b ∧ a.dim = b.dim :=
    ⟨_, _, rfl, rfl, by decide +kernel⟩
  have hd : ∀ d, AskSameDims d d := fun d => ⟨Iff.rfl, fun _ _ _ => Iff.rfl⟩
  have hin : inputEntries {} ((Demo.aliasComps a b).map (·.1)) =
      [("T", { dims := some ["*"], units := some "K" }), ("x", { dims := some ["z"], units := some "m", aliasName := a }),
       ("T", { dims := some ["*"], units := some "K" }), ("y", { dims := some ["z"], units := some "m", aliasName := b })] := rfl
  have hcls : ∀ c ∈ (Demo.aliasComps a b).map (·.1), c = Demo.aliasCls "x" a ∨ c = Demo.aliasCls "y" b := by
    intro c hc; simpa [Demo.aliasComps] using hc
  have hout : ∀ c ∈ (Demo.aliasComps a b).map (·.1), ∀ kv ∈ c.outProps, kv = ("T", { units := some "K s^-1" }) := by
    intro c hc kv hkv
    rcases hcls c hc with rfl | rfl <;> simpa [Demo.aliasCls] using hkv
  have hasks : ∀ c ∈ (Demo.aliasComps a b).map (·.1), ∀ d, AsksDims c.inProps "T" { units := some "K s^-1" } d → d = ["*"] := by
    intro c hc d h
    rcases hcls c hc with rfl | rfl <;> rcases h with h | ⟨_, ip, h1, h2⟩ <;> first | (cases h) | skip
    all_goals
      simp [Demo.aliasCls, Dict.get?] at h1
      subst h1
      exact (Option.some.inj h2).symm
  refine ⟨⟨?_, ?_, ?_, ?_, ?_, ?_, ?_, ?_⟩, ?_, ?_, ?_⟩
  · intro c hc h
    rcases hcls c hc with rfl | rfl <;> cases h
  · rw [hin]
    intro x hx y hy hxy
    simp only [List.mem_cons, List.not_mem_nil, or_false] at hx hy
    rcases hx with rfl | rfl | rfl | rfl <;> rcases hy with rfl | rfl | rfl | rfl <;>
      first | exact hu "K" hK _ _ rfl rfl | exact hu "m" hm _ _ rfl rfl | simp at hxy
  · rw [hin]
    intro x hx y hy hxy d e h1 h2
    simp only [List.mem_cons, List.not_mem_nil, or_false] at hx hy
    rcases hx with rfl | rfl | rfl | rfl <;> rcases hy with rfl | rfl | rfl | rfl <;>
      first
      | (simp at hxy; done)
      | (injection h1 with h1; injection h2 with h2; subst h1; subst h2; exact hd _)
  · simp [Demo.aliasComps, Demo.aliasCls, Dict.keys]
  · rw [hin]
    intro x hx c hc y hy hxy
    simp only [List.mem_cons, List.not_mem_nil, or_false] at hx
    rcases hcls c hc with rfl | rfl <;> simp only [Demo.aliasCls, List.mem_cons, List.not_mem_nil, or_false] at hy <;>
      subst hy <;> rcases hx with rfl | rfl | rfl | rfl <;> simp at hxy
  · intro _ c hc x hx c' hc' y hy _
    rw [hout c hc x hx, hout c' hc' y hy]
    exact hu "K s^-1" (by simp) _ _ rfl rfl
  · intro _ c hc x hx c' hc' y hy _ d e h1 h2
    rw [hout c hc x hx] at h1
    rw [hout c' hc' y hy] at h2
    rw [hasks c hc d h1, hasks c' hc' e h2]
    exact hd _
  · rw [hin]
    intro _ x hx c hc y hy hxy
    rw [hout c hc y hy] at hxy ⊢
    simp only [List.mem_cons, List.not_mem_nil, or_false] at hx
    obtain ⟨a', b', h1, h2, h3⟩ := hr
    rcases hx with rfl | rfl | rfl | rfl <;>
      first | exact ⟨"K", "K s^-1", a', b', rfl, rfl, h1, h2, h3⟩ | simp at hxy
  · intro c hc
    have hcl := hcls c.1 (List.mem_map.2 ⟨c, hc, rfl⟩)
    have key : ∀ n al, n = "x" ∨ n = "y" → ValidProps Demo.reg (Demo.aliasCls n al) := by
      intro n al hn
      have hne : "T" ≠ n := by rcases hn with rfl | rfl <;> decide
      have hne' : "T" ≠ "d" ++ n ∧ n ≠ "d" ++ n := by rcases hn with rfl | rfl <;> decide
      refine ⟨?_, ?_, ?_, ?_, ?_, fun _ => ?_, fun _ => ?_, fun _ => ?_⟩
      · intro kv hkv
        simp only [Demo.aliasCls, List.mem_cons, List.not_mem_nil, or_false] at hkv
        rcases hkv with rfl | rfl <;> exact ⟨rfl, rfl⟩
      · unfold AliasesDistinct Demo.aliasCls
        cases al <;> simp
      · intro kv hkv
        simp only [Demo.aliasCls, List.mem_cons, List.not_mem_nil, or_false] at hkv
        subst hkv; exact ⟨rfl, Or.inl rfl⟩
      · unfold AliasesDistinct Demo.aliasCls; simp
      · intro kv hkv ip iu u h1
        simp only [Demo.aliasCls, List.mem_cons, List.not_mem_nil, or_false] at hkv
        subst hkv
        simp [Demo.aliasCls, Dict.get?, hne'.1, hne'.2] at h1
      · intro kv hkv
        simp only [Demo.aliasCls, List.mem_cons, List.not_mem_nil, or_false] at hkv
        subst hkv; exact ⟨rfl, Or.inr (by simp [Demo.aliasCls, Dict.keys])⟩
      · unfold AliasesDistinct Demo.aliasCls; simp
      · intro kv hkv ip iu u h1 h2 h3
        simp only [Demo.aliasCls, List.mem_cons, List.not_mem_nil, or_false] at hkv
        subst hkv
        simp [Demo.aliasCls, Dict.get?] at h1
        subst h1
        cases h2; cases h3
        exact hr
    rcases hcl with h | h <;> rw [h]
    · exact key _ _ (Or.inl rfl)
    · exact key _ _ (Or.inr rfl)
  · intro c hc
    have : c.2 = Demo.tendObj := by
      simp only [Demo.aliasComps, List.mem_cons, List.not_mem_nil, or_false] at hc
      rcases hc with rfl | rfl <;> rfl
    rw [this]; exact .inl (by decide +kernel)
  · intro c hc
    rcases hcls c.1 (List.mem_map.2 ⟨c, hc, rfl⟩) with h | h <;> rw [h] <;> simp [Demo.aliasCls, Dict.keys]

/-- Non-vacuity of C66: with different aliases the two components can be composed, with
the same alias they cannot. -/
example (o : SetOrder) :
    (∃ c, compositeConstruct Demo.reg o {} .tendency (Demo.aliasComps (some "q") (some "r")) = .ok c) ∧
    compositeConstruct Demo.reg o {} .tendency (Demo.aliasComps (some "q") (some "q")) =
      .error .invalidPropertyDict := by
  constructor
  · obtain ⟨h1, h2, h3, h4⟩ := Demo.aliasComps_agree (some "q") (some "r")
    refine agreeing_components_compose_partial Demo.reg o {} .tendency _ (by decide) h3 ?_ h2 h4 h1 ?_ ?_ ?_
    · intro _ c hc
      simp only [Demo.aliasComps, List.mem_cons, List.not_mem_nil, or_false] at hc
      rcases hc with rfl | rfl <;> decide
    all_goals
      clear h1 h2 h3 h4
      intro x hx y hy s h1 h2
      simp [inputEntries, inputDicts, Demo.aliasComps, Demo.aliasCls] at hx hy
      rcases hx with rfl | rfl | rfl | rfl <;> rcases hy with rfl | rfl | rfl | rfl <;>
        first | rfl | (simp at h1; done) | (simp at h2; done) |
          (simp only [Option.some.injEq] at h1 h2; rw [← h1] at h2; simp at h2)
  · obtain ⟨h1, h2, h3, h4⟩ := Demo.aliasComps_agree (some "q") (some "q")
    refine composite_alias_clash Demo.reg o {} .tendency _ (by decide) h3 ?_ h2 h4 h1
      (Demo.aliasCls "x" (some "q"), Demo.tendObj) (Demo.aliasCls "y" (some "q"), Demo.tendObj)
      (by simp [Demo.aliasComps]) (by simp [Demo.aliasComps]) "x" "y" "q" _ _ (by decide) rfl rfl ?_ ?_
    · intro _ c hc
      simp only [Demo.aliasComps, List.mem_cons, List.not_mem_nil, or_false] at hc
      rcases hc with rfl | rfl <;> decide
    all_goals
      intro x hx h1
      simp [inputEntries, inputDicts, Demo.aliasComps, Demo.aliasCls] at hx
      rcases hx with rfl | rfl | rfl | rfl <;> simp_all

end Verif
