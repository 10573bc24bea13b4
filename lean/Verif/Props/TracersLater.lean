import Verif.Model.LiveProps
import Verif.Props.StepperInit
import Verif.Props.CompositeConstruct
import Verif.Lemmas.Tracers
/-!
# C90: tracers registered after a composite was made

Composites and TendencySteppers compute their property dictionaries on each access.  What
they declare for a quantity depends on the registered tracers only through that quantity;
a tracer no component mentions is added and changes nothing else.  But a registration can
make the properties raise: components whose `tracer_dims` differ can be composed while no
tracer is registered, and then every access to `input_properties` raises.
-/

namespace Verif

/-! ## `combine_properties` looks at one name at a time -/

/-- One more entry for a quantity (specification of one step). -/
def mergeOne (R : Registry) (o : SetOrder) (dims : QProps → Option (List String)) :
    Option QProps → QProps → Option QProps
  | none, p => (dims p).map fun d => { p with dims := some d }
  | some r, p =>
    match p.units, r.units, dims p, r.dims with
    | some u, some v, some d, some rd =>
      if R.unitsAreCompatible u v = .ok true then
        match combineDims o rd d with
        | .ok x => some { r with dims := some x }
        | .error _ => none
      else none
    | _, _, _, _ => none

theorem combineEntry_merge {R : Registry} {o : SetOrder} {inP out out' : PropDict} {n : String} {p : QProps}
    (h : combineEntry R o inP out n p = .ok out') :
    out'.get? n = mergeOne R o (combineEffDims inP n) (out.get? n) p := by
  unfold combineEntry at h
  cases hg : out.get? n with
  | none =>
    rw [hg] at h
    cases hd : combineEffDims inP n p with
    | none => rw [hd] at h; cases h
    | some d =>
      rw [hd] at h
      injection h with h
      subst h
      simp [mergeOne, hd, Dict.get?_set_self]
  | some r =>
    rw [hg] at h
    dsimp only at h
    split at h
    · rename_i u v hu hv
      obtain ⟨ok, hc, h⟩ := Exc.bind_ok_iff.1 h
      cases ok with
      | false => simp at h
      | true =>
        simp only [Bool.not_true, Bool.false_eq_true, if_false] at h
        split at h
        · rename_i dp d0 hdp hd0
          obtain ⟨d, hd, h⟩ := Exc.bind_ok_iff.1 h
          injection h with h
          subst h
          simp [mergeOne, hu, hv, hdp, hd0, hc, hd, Dict.get?_set_self]
        · cases h
        · cases h
    · cases h

theorem combineDict_merge {R : Registry} {o : SetOrder} {inP : PropDict} (n : String) (l : PropDict) {out res : PropDict}
    (h : combineDict R o inP l out = .ok res) :
    res.get? n = (entriesOf [l] n).foldl (mergeOne R o (combineEffDims inP n)) (out.get? n) := by
  induction l generalizing out with
  | nil => injection h with h; subst h; rfl
  | cons kv l ih =>
    obtain ⟨k, p⟩ := kv
    unfold combineDict at h
    obtain ⟨mid, hm, h⟩ := Exc.bind_ok_iff.1 h
    rw [ih h, entries_cons]
    by_cases hk : k = n
    · subst hk
      rw [combineEntry_merge hm]
      simp
    · rw [(combineEntry_ok hm).1 n (Ne.symm hk)]
      simp [hk]

/-- **C90, names are merged separately.**  What `combine_properties` declares for a
quantity depends only on the entries for that quantity, in order, and on the input of
that name. -/
theorem combined_by_name (R : Registry) (o : SetOrder) (l l' : List PropDict) (inP inP' res res' : PropDict)
    (h : combineProperties R o l inP = .ok res) (h' : combineProperties R o l' inP' = .ok res')
    (n : String) (he : entriesOf l n = entriesOf l' n) (hi : inP.get? n = inP'.get? n) :
    res.get? n = res'.get? n := by
  have hent : ∀ (l : List PropDict) n, entriesOf [l.flatten] n = entriesOf l n := by
    intro l n; unfold entriesOf; simp
  have hc : combineEffDims inP n = combineEffDims inP' n := by
    funext p; unfold combineEffDims; rw [hi]
  unfold combineProperties at h h'
  rw [combineLoop_eq] at h h'
  rw [combineDict_merge n _ h, combineDict_merge n _ h', hent, hent, he, hc]

/-! ## Which entries the tracers contribute -/

/-- The units a tracer is given to a component in: those prepended, or those registered. -/
def askedUnits (g : Tracers) (c : Class) (n : String) : Option String :=
  ((Dict.update [] c.prepend).get? n).or (g.units.get? n)

/-- The entries of one component for the input `n`: its own, and that of the tracer. -/
def ownEntries (g : Tracers) (c : Class) (n : String) : List QProps :=
  entriesOf [c.inProps] n ++
    (if c.usesTracers then
      ((askedUnits g c n).map fun u =>
        ({ dims := some (((c.tracerDims.getD []).erase "tracer").erase "tracer"), units := some u } : QProps)).toList
     else [])

theorem entriesOf_nodup {d : PropDict} (hd : d.keys.Nodup) (n : String) : entriesOf [d] n = (d.get? n).toList := by
  induction d with
  | nil => rfl
  | cons kv d ih =>
    obtain ⟨k, p⟩ := kv
    rw [Dict.keys_cons, List.nodup_cons] at hd
    rw [entries_cons, ih hd.2, Dict.get?_cons]
    by_cases hk : k = n
    · subst hk
      have : Dict.get? d k = none := (Dict.get?_eq_none_iff d k).2 hd.1
      simp [this]
    · simp [hk]

theorem entriesOf_append (a b : List PropDict) (n : String) : entriesOf (a ++ b) n = entriesOf a n ++ entriesOf b n := by
  unfold entriesOf; simp

theorem entriesOf_flatMap (g : Tracers) (hg : g.units.keys.Nodup) (cs : List Class) (n : String) :
    entriesOf (cs.flatMap (inputDicts g)) n = cs.flatMap (fun c => ownEntries g c n) := by
  induction cs with
  | nil => rfl
  | cons c cs ih =>
    rw [List.flatMap_cons, List.flatMap_cons, entriesOf_append, ih]
    congr 1
    unfold inputDicts ownEntries
    rw [show ∀ (a : PropDict) (b : List PropDict), a :: b = [a] ++ b from fun _ _ => rfl, entriesOf_append]
    congr 1
    cases c.usesTracers with
    | false => rfl
    | true =>
      simp only [if_true]
      rw [entriesOf_nodup (tracerProps_nodup _ _ _)]
      unfold tracerProps askedUnits
      have h2 : (Dict.update ([] : Dict String) c.prepend).keys.Nodup := Dict.nodup_keys_update (by simp) _
      rw [Dict.get?_mapVal, Dict.get?_update _ _ h2, Dict.get?_update _ _ hg]
      simp

theorem ownEntries_congr {g g' : Tracers} {n : String} (h : g.units.get? n = g'.units.get? n) (c : Class) :
    ownEntries g c n = ownEntries g' c n := by
  unfold ownEntries askedUnits; rw [h]

theorem combineInputs_parts {R : Registry} {o : SetOrder} {g : Tracers} {cs : List Class} {inP : PropDict}
    (h : combineInputs R o g cs = .ok inP) :
    ∀ c ∈ cs, c.usesTracers = true → ∃ td, c.tracerDims = some td ∧ "tracer" ∈ td := by
  unfold combineInputs at h
  obtain ⟨ls, hls, h'⟩ := Exc.bind_ok_iff.1 h
  clear h h'
  induction cs generalizing ls with
  | nil => intro c hc; cases hc
  | cons c cs ih =>
    rw [List.mapM_cons] at hls
    obtain ⟨b, hb, hls⟩ := Exc.bind_ok_iff.1 hls
    obtain ⟨bs, hbs, _⟩ := Exc.bind_ok_iff.1 hls
    intro c' hc' hu
    rcases List.mem_cons.1 hc' with rfl | hc'
    · unfold inputContribution at hb
      rw [hu] at hb
      cases ht : c'.tracerDims with
      | none => rw [ht] at hb; cases hb
      | some td =>
        rw [ht] at hb
        simp only [if_true] at hb
        split at hb
        · cases hb
        · rename_i h; exact ⟨td, rfl, not_not.1 h⟩
    · exact ih _ hbs c' hc' hu

theorem combineInputs_ok_iff (R : Registry) (o : SetOrder) (g : Tracers) (hg : g.units.keys.Nodup) (cs : List Class)
    (ht : ∀ c ∈ cs, c.usesTracers = true → ∃ td, c.tracerDims = some td ∧ "tracer" ∈ td) :
    (∃ inP, combineInputs R o g cs = .ok inP) ↔
      ∀ n, EntriesAgree R [] n (cs.flatMap fun c => ownEntries g c n) := by
  have : combineInputs R o g cs = combineProperties R o (cs.flatMap (inputDicts g)) := by
    unfold combineInputs
    rw [mapM_of_ok cs (fun c hc => inputContribution_eq (ht c hc)), Exc.ok_bind, List.flatMap_def]
  rw [this, combine_properties_ok_iff]
  simp only [entriesOf_flatMap g hg]

/-! ## What is declared later -/

/-- **C90.**  Whatever happened to the registered tracers between two accesses of
`input_properties`, the entry of a quantity whose registration is the same is the same. -/
theorem input_properties_later (R : Registry) (o : SetOrder) (g g' : Tracers) (hg : g.units.keys.Nodup)
    (hg' : g'.units.keys.Nodup) (cs : List Class) (inP inP' : PropDict)
    (h : compositeInputs R o g cs = .ok inP) (h' : compositeInputs R o g' cs = .ok inP')
    (q : String) (hq : g.units.get? q = g'.units.get? q) : inP.get? q = inP'.get? q := by
  refine combined_by_name R o _ _ [] [] _ _ (combineInputs_ok h) (combineInputs_ok h') q ?_ rfl
  rw [entriesOf_flatMap g hg, entriesOf_flatMap g' hg']
  simp only [ownEntries_congr hq]

/-- **C90, when the properties still exist.**  If `input_properties` could be evaluated
before, it can be evaluated after registering `n` if and only if the entries for `n`
agree. -/
theorem input_properties_later_iff (R : Registry) (o : SetOrder) (g g' : Tracers) (hg : g.units.keys.Nodup)
    (hg' : g'.units.keys.Nodup) (cs : List Class) (inP : PropDict) (n : String)
    (h : compositeInputs R o g cs = .ok inP)
    (hq : ∀ q, q ≠ n → g.units.get? q = g'.units.get? q) :
    (∃ inP', compositeInputs R o g' cs = .ok inP') ↔
      EntriesAgree R [] n (cs.flatMap fun c => ownEntries g' c n) := by
  unfold compositeInputs at h ⊢
  have ht := combineInputs_parts h
  rw [combineInputs_ok_iff R o g' hg' cs ht]
  have hall := (combineInputs_ok_iff R o g hg cs ht).1 ⟨inP, h⟩
  constructor
  · intro h; exact h n
  · intro hn q
    by_cases hqn : q = n
    · subst hqn; exact hn
    · have := hall q
      simp only [ownEntries_congr (hq q hqn)] at this
      exact this

theorem registered_units {R : Registry} {g g' : Tracers} {n u : String} (h : registerTracer R g n u = (g', .ok ())) :
    g'.units = g.units.set n u := by
  unfold registerTracer at h
  cases hu : g.units.get? n with
  | none =>
    rw [hu] at h
    injection h with h _; rw [← h]
  | some old =>
    rw [hu] at h
    dsimp only at h
    cases hs : R.unitsAreSame old u with
    | error e => rw [hs] at h; injection h with _ h; cases h
    | ok same =>
      rw [hs] at h
      cases same with
      | false => injection h with _ h; cases h
      | true => injection h with h _; rw [← h]

/-- The component does not mention the quantity, other than as a tracer. -/
def Unmentioned (c : Class) (n : String) : Prop :=
  n ∉ c.inProps.keys ∧ n ∉ c.prepend.map (·.1) ∧ n ∉ c.outProps.keys ∧ n ∉ c.diagProps.keys

theorem ownEntries_unmentioned {g : Tracers} {c : Class} {n : String} (h : Unmentioned c n) :
    ownEntries g c n = if c.usesTracers then
      ((g.units.get? n).map fun u =>
        ({ dims := some (((c.tracerDims.getD []).erase "tracer").erase "tracer"), units := some u } : QProps)).toList
      else [] := by
  unfold ownEntries askedUnits
  have h1 : entriesOf [c.inProps] n = [] := by
    apply List.eq_nil_iff_forall_not_mem.2
    intro p hp
    exact h.1 (Dict.mem_keys_of_mem (mem_entries.1 hp))
  have h2 : (Dict.update [] c.prepend).get? n = none := by
    rw [Dict.get?_eq_none_iff, Dict.mem_keys_update]
    simpa [Dict.keys] using h.2.1
  rw [h1, h2]; simp

/-- **C90, a new tracer is added.**  After registering a tracer that no component
mentions, `input_properties` can still be evaluated, provided the components using
tracers ask for them with the same dims; every other entry is as it was, and the tracer
is declared, with the units registered, exactly if some component uses tracers. -/
theorem fresh_tracer_added (R : Registry) (o : SetOrder) (g g' : Tracers) (hg : g.units.keys.Nodup)
    (cs : List Class) (inP : PropDict) (n u : String)
    (h : compositeInputs R o g cs = .ok inP) (hreg : registerTracer R g n u = (g', .ok ()))
    (hknown : (R.parse u).isSome) (hfresh : ∀ c ∈ cs, Unmentioned c n)
    (hdims : ∀ c ∈ cs, ∀ c' ∈ cs, c.usesTracers = true → c'.usesTracers = true →
      ∀ d d', c.tracerDims = some d → c'.tracerDims = some d' →
        AskSameDims ((d.erase "tracer").erase "tracer") ((d'.erase "tracer").erase "tracer")) :
    ∃ inP', compositeInputs R o g' cs = .ok inP' ∧ (∀ q, q ≠ n → inP'.get? q = inP.get? q) ∧
      (∀ p, inP'.get? n = some p → p.units = some u) ∧
      (n ∈ inP'.keys ↔ ∃ c ∈ cs, c.usesTracers = true) := by
  have hgu := registered_units hreg
  have hg' : g'.units.keys.Nodup := by rw [hgu]; exact Dict.nodup_keys_set hg _ _
  have hq : ∀ q, q ≠ n → g.units.get? q = g'.units.get? q := fun q hqn => by
    rw [hgu, Dict.get?_set_ne _ _ (Ne.symm hqn)]
  have hgn : g'.units.get? n = some u := by rw [hgu, Dict.get?_set_self]
  have hent : ∀ c ∈ cs, ∀ p ∈ ownEntries g' c n, p.units = some u ∧ c.usesTracers = true ∧
      p.dims = some (((c.tracerDims.getD []).erase "tracer").erase "tracer") := by
    intro c hc p hp
    rw [ownEntries_unmentioned (hfresh c hc), hgn] at hp
    cases hu : c.usesTracers with
    | false => rw [hu] at hp; simp at hp
    | true => rw [hu] at hp; simp at hp; subst hp; exact ⟨rfl, rfl, rfl⟩
  have ht := combineInputs_parts h
  have hagree : EntriesAgree R [] n (cs.flatMap fun c => ownEntries g' c n) := by
    have hasks : ∀ (p : QProps) (d : List String), AsksDims [] n p d → p.dims = some d := by
      rintro p d (h | ⟨_, ip, h, _⟩)
      · exact h
      · cases h
    apply entriesAgree_of_pairs
    · intro p hp
      obtain ⟨c, hc, hp⟩ := List.mem_flatMap.1 hp
      exact ⟨_, Or.inl (hent c hc p hp).2.2⟩
    · intro p hp q hq
      obtain ⟨c, hc, hp⟩ := List.mem_flatMap.1 hp
      obtain ⟨c', hc', hq⟩ := List.mem_flatMap.1 hq
      obtain ⟨a, ha⟩ := Option.isSome_iff_exists.1 hknown
      exact ⟨u, u, (hent c hc p hp).1, (hent c' hc' q hq).1, (units_compatible_equivalence R).1 u hknown⟩
    · intro p hp q hq d e hd he
      obtain ⟨c, hc, hp⟩ := List.mem_flatMap.1 hp
      obtain ⟨c', hc', hq⟩ := List.mem_flatMap.1 hq
      obtain ⟨_, hcu, hpd⟩ := hent c hc p hp
      obtain ⟨_, hcu', hqd⟩ := hent c' hc' q hq
      obtain ⟨td, h1, _⟩ := ht c hc hcu
      obtain ⟨td', h1', _⟩ := ht c' hc' hcu'
      rw [hasks p d hd, h1] at hpd
      rw [hasks q e he, h1'] at hqd
      injection hpd with hpd
      injection hqd with hqd
      rw [hpd, hqd]
      exact hdims c hc c' hc' hcu hcu' td td' h1 h1'
  obtain ⟨inP', h'⟩ := (input_properties_later_iff R o g g' hg hg' cs inP n h hq).2 hagree
  have hcov := combined_properties_cover _ _ _ _ _ (combineInputs_ok h')
  refine ⟨inP', h', fun q hqn => (input_properties_later R o g g' hg hg' cs inP inP' h h' q (hq q hqn)).symm, ?_, ?_⟩
  · intro p hp
    obtain ⟨p0, ps, he, hpu, _⟩ := hcov.2.1 n p hp
    rw [hpu]
    have : p0 ∈ cs.flatMap fun c => ownEntries g' c n := by
      rw [← entriesOf_flatMap g' hg', he]; simp
    obtain ⟨c, hc, hp0⟩ := List.mem_flatMap.1 this
    exact (hent c hc p0 hp0).1
  · have hmem : n ∈ inP'.keys ↔ ∃ p, p ∈ cs.flatMap fun c => ownEntries g' c n := by
      rw [← entriesOf_flatMap g' hg', hcov.1]
      constructor
      · rintro ⟨d, hd, hnd⟩
        obtain ⟨x, hx, rfl⟩ := List.mem_map.1 hnd
        exact ⟨x.2, mem_entriesOf.2 (List.mem_flatten.2 ⟨d, hd, hx⟩)⟩
      · rintro ⟨p, hp⟩
        obtain ⟨d, hd, hx⟩ := List.mem_flatten.1 (mem_entriesOf.1 hp)
        exact ⟨d, hd, Dict.mem_keys_of_mem hx⟩
    rw [hmem]
    constructor
    · rintro ⟨p, hp⟩
      obtain ⟨c, hc, hp⟩ := List.mem_flatMap.1 hp
      exact ⟨c, hc, (hent c hc p hp).2.1⟩
    · rintro ⟨c, hc, hu⟩
      refine ⟨{ dims := some (((c.tracerDims.getD []).erase "tracer").erase "tracer"), units := some u },
        List.mem_flatMap.2 ⟨c, hc, ?_⟩⟩
      rw [ownEntries_unmentioned (hfresh c hc), hgn, hu]
      simp

/-! ## The other properties -/

theorem combineDict_congr {R : Registry} {o : SetOrder} {inP inP' : PropDict} (l : PropDict) (out : PropDict)
    (h : ∀ kv ∈ l, inP.get? kv.1 = inP'.get? kv.1) : combineDict R o inP l out = combineDict R o inP' l out := by
  induction l generalizing out with
  | nil => rfl
  | cons kv l ih =>
    obtain ⟨k, p⟩ := kv
    unfold combineDict
    have : combineEntry R o inP out k p = combineEntry R o inP' out k p := by
      unfold combineEntry combineEffDims
      rw [h (k, p) (by simp)]
    rw [this]
    congr 1
    funext out
    exact ih out fun kv hkv => h kv (by simp [hkv])

theorem combineTendencies_later {R : Registry} {o : SetOrder} {g g' : Tracers} (hg : g.units.keys.Nodup)
    (hg' : g'.units.keys.Nodup) {cs : List Class} {inP inP' : PropDict}
    (h : compositeInputs R o g cs = .ok inP) (h' : compositeInputs R o g' cs = .ok inP')
    (hq : ∀ c ∈ cs, ∀ q ∈ c.outProps.keys, g.units.get? q = g'.units.get? q) :
    combineTendencies R o cs inP' = combineTendencies R o cs inP := by
  unfold combineTendencies combineProperties
  rw [combineLoop_eq, combineLoop_eq]
  apply combineDict_congr
  intro kv hkv
  obtain ⟨d, hd, hkv⟩ := List.mem_flatten.1 hkv
  obtain ⟨c, hc, rfl⟩ := List.mem_map.1 hd
  exact (input_properties_later R o g g' hg hg' cs inP inP' h h' _ (hq c hc _ (Dict.mem_keys_of_mem hkv))).symm

/-- **C90, tendencies.**  If `input_properties` can be evaluated, registering tracers that
are no component's outputs does not change `tendency_properties`, nor whether it can be
evaluated. -/
theorem tendency_properties_later (R : Registry) (o : SetOrder) (g g' : Tracers) (hg : g.units.keys.Nodup)
    (hg' : g'.units.keys.Nodup) (cs : List Class) (inP inP' : PropDict)
    (h : compositeInputs R o g cs = .ok inP) (h' : compositeInputs R o g' cs = .ok inP')
    (hq : ∀ c ∈ cs, ∀ q ∈ c.outProps.keys, g.units.get? q = g'.units.get? q) :
    compositeTendencies R o g' cs = compositeTendencies R o g cs := by
  unfold compositeTendencies
  rw [h, h', Exc.ok_bind, Exc.ok_bind]
  exact combineTendencies_later hg hg' h h' hq

theorem diagLoop_keys (cs : List Class) (out d : PropDict) (h : compositeDiagLoop cs out = .ok d) :
    ∀ q ∈ d.keys, q ∈ out.keys ∨ ∃ c ∈ cs, q ∈ c.diagProps.keys := by
  induction cs generalizing out with
  | nil => injection h with h; subst h; exact fun q hq => Or.inl hq
  | cons c cs ih =>
    unfold compositeDiagLoop at h
    obtain ⟨_, _, h⟩ := Exc.bind_ok_iff.1 h
    intro q hq
    rcases ih _ h q hq with h | ⟨c', hc', h⟩
    · rcases (Dict.mem_keys_update _ _ _).1 h with h | h
      · exact Or.inl h
      · exact Or.inr ⟨c, by simp, h⟩
    · exact Or.inr ⟨c', by simp [hc'], h⟩

/-- **C90, diagnostics.**  Likewise for `diagnostic_properties`. -/
theorem diagnostic_properties_later (R : Registry) (o : SetOrder) (g g' : Tracers) (hg : g.units.keys.Nodup)
    (hg' : g'.units.keys.Nodup) (cs : List Class) (inP inP' : PropDict)
    (h : compositeInputs R o g cs = .ok inP) (h' : compositeInputs R o g' cs = .ok inP')
    (hq : ∀ c ∈ cs, ∀ q ∈ c.diagProps.keys, g.units.get? q = g'.units.get? q) :
    compositeDiagnostics R o g' cs = compositeDiagnostics R o g cs := by
  unfold compositeDiagnostics
  cases hd : compositeDiagLoop cs [] with
  | error e => rfl
  | ok d =>
    rw [Exc.ok_bind, Exc.ok_bind, h, h', Exc.ok_bind, Exc.ok_bind]
    have : (∀ kv ∈ d, kv.2.dims.isSome = true ∨ kv.1 ∈ inP'.keys) ↔
        (∀ kv ∈ d, kv.2.dims.isSome = true ∨ kv.1 ∈ inP.keys) := by
      refine forall_congr' fun kv => forall_congr' fun hkv => or_congr Iff.rfl ?_
      have hk : ∃ c ∈ cs, kv.1 ∈ c.diagProps.keys := by
        rcases diagLoop_keys cs [] d hd kv.1 (Dict.mem_keys_of_mem hkv) with h | h
        · cases h
        · exact h
      obtain ⟨c, hc, hk⟩ := hk
      have he := input_properties_later R o g g' hg hg' cs inP inP' h h' _ (hq c hc _ hk)
      rw [← Dict.get?_isSome_iff, ← Dict.get?_isSome_iff, he]
    simp only [this]

theorem diagLoop_dims (cs : List Class) (out d : PropDict) (h : compositeDiagLoop cs out = .ok d)
    (hout : ∀ kv ∈ out, kv.2.dims.isSome = true) (hcs : ∀ c ∈ cs, ∀ kv ∈ c.diagProps, kv.2.dims.isSome = true) :
    ∀ kv ∈ d, kv.2.dims.isSome = true := by
  induction cs generalizing out with
  | nil => injection h with h; subst h; exact hout
  | cons c cs ih =>
    unfold compositeDiagLoop at h
    obtain ⟨_, _, h⟩ := Exc.bind_ok_iff.1 h
    refine ih _ h ?_ (fun c' hc' => hcs c' (by simp [hc']))
    have key : ∀ (e : PropDict) (b : PropDict), (∀ kv ∈ b, kv.2.dims.isSome = true) →
        (∀ kv ∈ e, kv.2.dims.isSome = true) → ∀ kv ∈ b.update e, kv.2.dims.isSome = true := by
      intro e
      induction e with
      | nil => exact fun b hb _ => hb
      | cons x e ihe =>
        intro b hb he
        refine ihe (b.set x.1 x.2) (fun kv hkv => ?_) (fun kv hkv => he kv (by simp [hkv]))
        rcases Dict.mem_set hkv with h | h
        · exact hb kv h
        · rw [h]; exact he x (by simp)
    exact key c.diagProps out hout (hcs c (by simp))

/-- **C90, diagnostics with dims.**  If all diagnostics declare dims, as the components
themselves demand of those that are not inputs, no registration of tracers makes any
difference to `diagnostic_properties`, not even one that breaks `input_properties`. -/
theorem diagnostic_properties_any_tracers (R : Registry) (o : SetOrder) (g g' : Tracers) (cs : List Class)
    (hdims : ∀ c ∈ cs, ∀ kv ∈ c.diagProps, kv.2.dims.isSome = true) :
    compositeDiagnostics R o g' cs = compositeDiagnostics R o g cs := by
  unfold compositeDiagnostics
  cases hd : compositeDiagLoop cs [] with
  | error e => rfl
  | ok d =>
    have := diagLoop_dims cs [] d hd (by simp) hdims
    rw [Exc.ok_bind, Exc.ok_bind, if_pos this, if_pos this]

/-! ## TendencySteppers -/

theorem tsOutputProps_later {R : Registry} {o : SetOrder} {g g' : Tracers} (hg : g.units.keys.Nodup)
    (hg' : g'.units.keys.Nodup) {cs : List Class} {inP inP' : PropDict}
    (h : compositeInputs R o g cs = .ok inP) (h' : compositeInputs R o g' cs = .ok inP')
    (hq : ∀ c ∈ cs, ∀ q ∈ c.outProps.keys, g.units.get? q = g'.units.get? q) :
    tsOutputProps R o g' cs = tsOutputProps R o g cs := by
  have := tendency_properties_later R o g g' hg hg' cs inP inP' h h' hq
  unfold compositeTendencies compositeInputs at this
  unfold tsOutputProps tsTendencyProps
  have e : ∀ g, (combineInputs R o g cs >>= fun inP => combineTendencies R o cs inP) =
      (combineInputs R o g cs >>= combineTendencies R o cs) := fun _ => rfl
  rw [e, e, this]

theorem tsOutputProps_keys {R : Registry} {o : SetOrder} {g : Tracers} {cs : List Class} {outP : PropDict}
    (h : tsOutputProps R o g cs = .ok outP) : ∀ q ∈ outP.keys, ∃ c ∈ cs, q ∈ c.outProps.keys := by
  unfold tsOutputProps at h
  obtain ⟨t, ht, h⟩ := Exc.bind_ok_iff.1 h
  unfold tsTendencyProps at ht
  obtain ⟨inP, _, ht⟩ := Exc.bind_ok_iff.1 ht
  have hk : ∀ (t : PropDict) (outP : PropDict),
      t.mapM (fun kv => timesSecond R kv.2 >>= fun p => Except.ok (kv.1, p)) = .ok outP → outP.keys = t.keys := by
    intro t
    induction t with
    | nil => intro outP h; injection h with h; subst h; rfl
    | cons kv t ih =>
      intro outP h
      rw [List.mapM_cons] at h
      obtain ⟨b, hb, h⟩ := Exc.bind_ok_iff.1 h
      obtain ⟨bs, hbs, h⟩ := Exc.bind_ok_iff.1 h
      injection h with h; subst h
      obtain ⟨p, _, hb⟩ := Exc.bind_ok_iff.1 hb
      injection hb with hb; subst hb
      show kv.1 :: Dict.keys bs = kv.1 :: Dict.keys t
      rw [ih _ hbs]
  rw [hk t outP h]
  intro q hq
  obtain ⟨d, hd, hqd⟩ := ((combined_properties_cover _ _ _ _ _ ht).1 q).1 hq
  obtain ⟨c, hc, rfl⟩ := List.mem_map.1 hd
  exact ⟨c, hc, hqd⟩

theorem insertNet_congr {R : Registry} {inP inP' : PropDict} {inst : String} {state new : State} {dt : Int}
    (l : List String) (diag : Dict DataArray) (h : ∀ q ∈ l, inP.get? q = inP'.get? q) :
    insertNet R inP inst state new dt l diag = insertNet R inP' inst state new dt l diag := by
  induction l generalizing diag with
  | nil => rfl
  | cons n l ih =>
    unfold insertNet
    have : netTendency R inP state new dt n = netTendency R inP' state new dt n := by
      unfold netTendency Dict.get
      rw [h n (by simp)]
    rw [this]
    split
    · rfl
    · congr 1
      funext d
      exact ih _ fun q hq => h q (by simp [hq])

theorem tsInputProps_later {R : Registry} {o : SetOrder} {g g' : Tracers} (hg : g.units.keys.Nodup)
    (hg' : g'.units.keys.Nodup) {cs : List Class} {inP inP' p : PropDict}
    (h : compositeInputs R o g cs = .ok inP) (h' : compositeInputs R o g' cs = .ok inP')
    (hts : tsInputProps R o g cs = .ok p)
    (hq : ∀ c ∈ cs, ∀ q ∈ c.outProps.keys, g.units.get? q = g'.units.get? q) :
    ∃ p', tsInputProps R o g' cs = .ok p' ∧ ∀ q, g.units.get? q = g'.units.get? q → p'.get? q = p.get? q := by
  have hsame : ∀ q, g.units.get? q = g'.units.get? q → inP.get? q = inP'.get? q :=
    fun q hq => input_properties_later R o g g' hg hg' cs inP inP' h h' q hq
  have hn := combineProperties_nodup (combineInputs_ok h)
  have hn' := combineProperties_nodup (combineInputs_ok h')
  have hout := tsOutputProps_later hg hg' h h' hq
  unfold tsInputProps at hts ⊢
  unfold compositeInputs at h h'
  rw [h, Exc.ok_bind] at hts
  rw [h', Exc.ok_bind, hout]
  obtain ⟨outP, ho, hts⟩ := Exc.bind_ok_iff.1 hts
  rw [ho, Exc.ok_bind]
  have hsplit : ∀ (a b : PropDict) q, entriesOf [a, b] q = entriesOf [a] q ++ entriesOf [b] q := by
    intro a b q; exact entriesOf_append [a] [b] q
  have hent : ∀ q, g.units.get? q = g'.units.get? q → entriesOf [inP', outP] q = entriesOf [inP, outP] q := by
    intro q hq
    rw [hsplit, hsplit, entriesOf_nodup hn', entriesOf_nodup hn, hsame q hq]
  have hall := (combine_properties_ok_iff R o _ _).1 ⟨p, hts⟩
  obtain ⟨p', hp'⟩ := (combine_properties_ok_iff R o [inP', outP] []).2 (by
    intro q
    by_cases hqs : g.units.get? q = g'.units.get? q
    · rw [hent q hqs]; exact hall q
    · have hnil : entriesOf [outP] q = [] := by
        apply List.eq_nil_iff_forall_not_mem.2
        intro x hx
        obtain ⟨c, hc, hk⟩ := tsOutputProps_keys ho q (Dict.mem_keys_of_mem (mem_entries.1 hx))
        exact hqs (hq c hc q hk)
      rw [hsplit, hnil, List.append_nil, entriesOf_nodup hn']
      cases hi : inP'.get? q with
      | none => exact entriesAgree_nil R [] q
      | some r =>
        obtain ⟨d, hd, _⟩ := combined_dims_exact R o _ _ _ (combineInputs_ok h') q r hi
        refine ⟨fun x hx => ?_, List.pairwise_singleton _ _, fun pre x post he hne => ?_⟩
        · simp at hx; subst hx; exact ⟨d, Or.inl hd⟩
        · exfalso
          cases pre with
          | nil => exact hne rfl
          | cons a pre => simp at he)
  exact ⟨p', hp', fun q hqs => combined_by_name R o _ _ _ _ _ _ hp' hts q (hent q hqs) rfl⟩

/-- **C90, steppers.**  A call of a TendencyStepper returns the same, with or without
tendencies in diagnostics, whatever tracers were registered since it was made, if none of
them is an output of a component and `input_properties` can still be evaluated. -/
theorem stepper_call_later {τ σ : Type} (R : Registry) (o : SetOrder) (g g' : Tracers) (hg : g.units.keys.Nodup)
    (hg' : g'.units.keys.Nodup) (cs : List Class) (inP inP' p : PropDict)
    (h : compositeInputs R o g cs = .ok inP) (h' : compositeInputs R o g' cs = .ok inP')
    (hts : tsInputProps R o g cs = .ok p)
    (hq : ∀ c ∈ cs, ∀ q ∈ c.outProps.keys, g.units.get? q = g'.units.get? q)
    (inst : String) (tid : Bool)
    (call : τ → σ → State → Int → τ × σ × State × Except Err (Dict DataArray × State))
    (x : τ) (s : σ) (state : State) (dt : Int) :
    tsCallLive R o g' cs inst tid call x s state dt = tsCallLive R o g cs inst tid call x s state dt := by
  obtain ⟨p', hp', hsame⟩ := tsInputProps_later hg hg' h h' hts hq
  unfold tsCallLive
  rw [tsOutputProps_later hg hg' h h' hq, hp', hts]
  simp only [Exc.ok_bind]
  cases ho : tsOutputProps R o g cs with
  | error e => rfl
  | ok outP =>
    simp only [Exc.ok_bind]
    have : ∀ state new diag, insertNet R p' inst state new dt outP.keys diag =
        insertNet R p inst state new dt outP.keys diag := by
      intro state new diag
      apply insertNet_congr
      intro q hqk
      obtain ⟨c, hc, hk⟩ := tsOutputProps_keys ho q hqk
      exact hsame q (hq c hc q hk)
    simp only [this]

/-- With the properties as evaluated during the call, the call is the one modelled by
`tsCall` (C40). -/
theorem tsCallLive_eq {τ σ : Type} (R : Registry) (o : SetOrder) (g : Tracers) (cs : List Class) (inP outP : PropDict)
    (hi : tsInputProps R o g cs = .ok inP) (ho : tsOutputProps R o g cs = .ok outP) (inst : String) (tid : Bool)
    (call : τ → σ → State → Int → τ × σ × State × Except Err (Dict DataArray × State))
    (x : τ) (s : σ) (state : State) (dt : Int) :
    tsCallLive R o g cs inst tid call x s state dt = tsCall R inP outP inst tid call x s state dt := by
  unfold tsCallLive tsCall
  rw [hi, ho]
  rfl

/-- **C90, without tendencies in diagnostics.**  No registration makes any difference to
the call, not even one that breaks the properties: it is the call of the stepper and the
copy of the untouched quantities. -/
theorem stepper_call_any_tracers {τ σ : Type} (R : Registry) (o : SetOrder) (g : Tracers) (cs : List Class)
    (inP outP : PropDict) (inst : String)
    (call : τ → σ → State → Int → τ × σ × State × Except Err (Dict DataArray × State))
    (x : τ) (s : σ) (state : State) (dt : Int) :
    tsCallLive R o g cs inst false call x s state dt = tsCall R inP outP inst false call x s state dt := rfl

/-! ## Registrations that break what was accepted -/

theorem agree_no_wildcard {R : Registry} {n : String} {es : List QProps} (h : EntriesAgree R [] n es)
    (D : QProps → List String) (hD : ∀ p ∈ es, p.dims = some (D p)) (hw : ∀ p ∈ es, "*" ∉ D p) :
    ∀ p ∈ es, ∀ q ∈ es, SameNamed (D p) (D q) := by
  have huniq : ∀ p ∈ es, ∀ e, AsksDims [] n p e → e = D p := by
    intro p hp e he
    exact he.unique (Or.inl (hD p hp))
  have key : ∀ k, ∀ pre p post, pre.length = k → es = pre ++ p :: post → ∀ q ∈ pre, SameNamed (D p) (D q) := by
    intro k
    induction k using Nat.strongRecOn with
    | _ k ih =>
      intro pre p post hk he q hq
      have hpm : p ∈ es := by rw [he]; simp
      have hsub : ∀ q ∈ pre, q ∈ es := fun q hq => by rw [he]; simp [hq]
      have hpre : ∀ q ∈ pre, ∀ q' ∈ pre, SameNamed (D q) (D q') := by
        intro a ha b hb
        have hab : ∀ a ∈ pre, ∀ i, (hi : i < pre.length) → ∀ j, (hj : j < pre.length) → i < j →
            SameNamed (D pre[j]) (D pre[i]) := by
          intro _ _ i hi j hj hij
          refine ih j (by omega) (pre.take j) pre[j] (pre.drop (j + 1) ++ p :: post) (by simp; omega) ?_ _ ?_
          · have e : pre = pre.take j ++ pre[j] :: pre.drop (j + 1) := by
              conv_lhs => rw [← List.take_append_drop j pre, List.drop_eq_getElem_cons hj]
            rw [he]
            conv_lhs => rw [e]
            rw [List.append_assoc, List.cons_append]
          · rw [List.mem_take_iff_getElem]
            exact ⟨i, by omega, rfl⟩
        obtain ⟨i, hi, rfl⟩ := List.getElem_of_mem ha
        obtain ⟨j, hj, rfl⟩ := List.getElem_of_mem hb
        rcases Nat.lt_trichotomy i j with hij | hij | hij
        · exact fun x hx => (hab _ ha i hi j hj hij x hx).symm
        · subst hij; exact fun x hx => Iff.rfl
        · exact hab _ ha j hj i hi hij
      have hne : pre ≠ [] := by rintro rfl; cases hq
      rcases h.fit pre p post he hne (D p) (Or.inl (hD p hpm)) with hf | hf
      · obtain ⟨e, he', hs⟩ := hf q hq
        exact absurd (huniq q (hsub q hq) e he' ▸ hs) (hw q (hsub q hq))
      · intro x hx
        rw [hf x hx]
        constructor
        · rintro ⟨q', hq', e, he', hxe⟩
          rw [huniq q' (hsub q' hq') e he'] at hxe
          exact (hpre q' hq' q hq x hx).1 hxe
        · intro hxq
          exact ⟨q, hq, D q, Or.inl (hD q (hsub q hq)), hxq⟩
  intro p hp q hq
  obtain ⟨i, hi, rfl⟩ := List.getElem_of_mem hp
  obtain ⟨j, hj, rfl⟩ := List.getElem_of_mem hq
  have hsplit : ∀ j (hj : j < es.length), es = es.take j ++ es[j] :: es.drop (j + 1) := by
    intro j hj
    conv_lhs => rw [← List.take_append_drop j es, List.drop_eq_getElem_cons hj]
  rcases Nat.lt_trichotomy i j with hij | hij | hij
  · have := key _ (es.take j) es[j] _ rfl (hsplit j hj) es[i] (List.mem_take_iff_getElem.2 ⟨i, by omega, rfl⟩)
    exact fun x hx => (this x hx).symm
  · subst hij; exact fun x hx => Iff.rfl
  · exact key _ (es.take i) es[i] _ rfl (hsplit i hi) es[j] (List.mem_take_iff_getElem.2 ⟨j, by omega, rfl⟩)

/-- **C90 fails.**  If two components ask for tracers with different dims, then as soon as
any tracer is registered that the components do not mention, `input_properties` of a
composite of them raises: also of one that was made before, when no tracer was
registered (see the example below). -/
theorem later_tracer_breaks (R : Registry) (o : SetOrder) (g : Tracers) (hg : g.units.keys.Nodup) (cs : List Class)
    (n : String) (hn : n ∈ g.units.keys) (hfresh : ∀ c ∈ cs, Unmentioned c n)
    (hw : ∀ c ∈ cs, c.usesTracers = true → "*" ∉ c.tracerDims.getD [])
    (c1 c2 : Class) (h1 : c1 ∈ cs) (h2 : c2 ∈ cs) (hu1 : c1.usesTracers = true) (hu2 : c2.usesTracers = true)
    (d1 d2 : List String) (ht1 : c1.tracerDims = some d1) (ht2 : c2.tracerDims = some d2)
    (x : String) (hx : x ≠ "*") (hxt : x ≠ "tracer") (hx1 : x ∈ d1) (hx2 : x ∉ d2) :
    ∃ e, compositeInputs R o g cs = .error e := by
  cases h : compositeInputs R o g cs with
  | error e => exact ⟨e, rfl⟩
  | ok inP =>
    exfalso
    have hagree := (combineInputs_ok_iff R o g hg cs (combineInputs_parts h)).1 ⟨inP, h⟩ n
    obtain ⟨u, hu⟩ := Dict.get?_of_mem_keys hn
    have hent : ∀ c ∈ cs, ∀ p ∈ ownEntries g c n, c.usesTracers = true ∧
        p.dims = some (((c.tracerDims.getD []).erase "tracer").erase "tracer") := by
      intro c hc p hp
      rw [ownEntries_unmentioned (hfresh c hc), hu] at hp
      cases hut : c.usesTracers with
      | false => rw [hut] at hp; simp at hp
      | true => rw [hut] at hp; simp at hp; subst hp; exact ⟨rfl, rfl⟩
    have hmem : ∀ c ∈ cs, c.usesTracers = true → ∀ d, c.tracerDims = some d →
        ({ dims := some ((d.erase "tracer").erase "tracer"), units := some u } : QProps) ∈
          cs.flatMap fun c => ownEntries g c n := by
      intro c hc hut d hd
      refine List.mem_flatMap.2 ⟨c, hc, ?_⟩
      rw [ownEntries_unmentioned (hfresh c hc), hu, hut, hd]
      simp
    have hsame := agree_no_wildcard hagree (fun p => p.dims.getD []) (by
      intro p hp
      obtain ⟨c, hc, hp⟩ := List.mem_flatMap.1 hp
      rw [(hent c hc p hp).2]; rfl) (by
      intro p hp hs
      obtain ⟨c, hc, hp⟩ := List.mem_flatMap.1 hp
      rw [(hent c hc p hp).2] at hs
      exact hw c hc (hent c hc p hp).1 (List.mem_of_mem_erase (List.mem_of_mem_erase hs)))
      _ (hmem c1 h1 hu1 d1 ht1) _ (hmem c2 h2 hu2 d2 ht2) x hx
    dsimp only [Option.getD] at hsame
    rw [List.mem_erase_of_ne hxt, List.mem_erase_of_ne hxt, List.mem_erase_of_ne hxt, List.mem_erase_of_ne hxt] at hsame
    exact hx2 (hsame.1 hx1)

/-- **C90, what is left behind.**  When the properties raise, a call with tendencies in
diagnostics raises too, but only after the step was taken: the stepper (its history of
tendencies) and the components are as after a successful call. -/
theorem stepper_call_breaks {τ σ : Type} (R : Registry) (o : SetOrder) (g : Tracers) (cs : List Class) (e : Err)
    (h : compositeInputs R o g cs = .error e) (inst : String)
    (call : τ → σ → State → Int → τ × σ × State × Except Err (Dict DataArray × State))
    (x : τ) (s : σ) (state : State) (dt : Int) (x' : τ) (s' : σ) (state' : State) (out : Dict DataArray × State)
    (hc : call x s state dt = (x', s', state', .ok out)) :
    tsCallLive R o g cs inst true call x s state dt = (x', s', state', .error e) := by
  unfold tsCallLive tsOutputProps tsTendencyProps
  unfold compositeInputs at h
  rw [hc, h]
  rfl

/-! ## Non-vacuity -/

/-- A component that uses tracers with the given dims. -/
def Demo.tracerUser (q : String) (dims : List String) : Class :=
  { kind := .tendency
    inProps := [("h", { dims := some ["z"], units := some "m" })]
    outProps := [(q, { dims := some ["z"], units := some "K s^-1" })]
    diagProps := []
    usesTracers := true
    tracerDims := some dims }

def Demo.agreeing : List Class := [Demo.tracerUser "T" ["tracer", "z"], Demo.tracerUser "U" ["z", "tracer"]]
def Demo.differing : List Class := [Demo.tracerUser "T" ["tracer", "z"], Demo.tracerUser "U" ["tracer", "y"]]

/-- The globals after registering one tracer. -/
def Demo.withTracer : Tracers := (registerTracer Demo.pintReg {} "q" "m").1

/-- Registering `q` adds it to what the composite declares. -/
example : (registerTracer Demo.pintReg {} "q" "m").2 = .ok () ∧
    (Demo.pintReg.parse "m").isSome = true ∧
    (∀ c ∈ Demo.agreeing, Unmentioned c "q") ∧
    Exc.test (compositeInputs Demo.pintReg Demo.order {} Demo.agreeing) (fun p => p.keys = ["h"]) = true ∧
    Exc.test (compositeInputs Demo.pintReg Demo.order Demo.withTracer Demo.agreeing)
      (fun p => p.keys = ["h", "q"] && (p.get? "q").any (fun e => e.units = some "m")) = true := by
  refine ⟨rfl, rfl, ?_, by decide +kernel, by decide +kernel⟩
  intro c hc
  have : c = Demo.tracerUser "T" ["tracer", "z"] ∨ c = Demo.tracerUser "U" ["z", "tracer"] := by
    simpa [Demo.agreeing] using hc
  rcases this with rfl | rfl <;> simp [Unmentioned, Demo.tracerUser, Dict.keys]

/-- The two differing components make a TendencyStepper, but once a tracer is
registered its properties raise. -/
theorem Demo.accepted_then_broken :
    Exc.test (tsConstruct Demo.pintReg Demo.order {} (Demo.differing.map fun c => (c, Demo.tendObj)) true "ab")
      (fun _ => true) = true ∧
    registerTracer Demo.pintReg {} "q" "m" = (Demo.withTracer, .ok ()) ∧
    Exc.failsWith (compositeInputs Demo.pintReg Demo.order Demo.withTracer Demo.differing) .invalidPropertyDict = true ∧
    Exc.failsWith (tsConstruct Demo.pintReg Demo.order Demo.withTracer (Demo.differing.map fun c => (c, Demo.tendObj)) true
      "ab") .invalidPropertyDict = true := by
  refine ⟨by decide +kernel, rfl, by decide +kernel, by decide +kernel⟩

/-- The step counted by the stepper is not taken back. -/
example : ∃ e, tsCallLive (τ := Nat) (σ := Unit) Demo.pintReg Demo.order Demo.withTracer Demo.differing "ab" true
    (fun k s state _ => (k + 1, s, state, .ok ([], state))) 4 () [] 1 = (5, (), [], .error e) := by
  obtain ⟨e, he⟩ := later_tracer_breaks Demo.pintReg Demo.order Demo.withTracer (by decide) Demo.differing "q" (by decide)
    (by
      intro c hc
      have : c = Demo.tracerUser "T" ["tracer", "z"] ∨ c = Demo.tracerUser "U" ["tracer", "y"] := by
        simpa [Demo.differing] using hc
      rcases this with rfl | rfl <;> simp [Unmentioned, Demo.tracerUser, Dict.keys])
    (by decide) _ _ (by simp [Demo.differing]; exact Or.inl rfl) (by simp [Demo.differing]; exact Or.inr rfl) rfl rfl
    _ _ rfl rfl "z" (by decide) (by decide) (by decide) (by decide)
  exact ⟨e, stepper_call_breaks _ _ _ _ e he _ _ _ _ _ _ _ _ _ _ rfl⟩

/-- The differing components, one of them with a diagnostic -/
def Demo.differingDiag : List Class :=
  [{ Demo.tracerUser "T" ["tracer", "z"] with diagProps := [("d", { dims := some ["z"], units := some "m" })] },
    Demo.tracerUser "U" ["tracer", "y"]]

/-- `diagnostic_properties` still works when `input_properties` does not. -/
example : (∀ c ∈ Demo.differingDiag, ∀ kv ∈ c.diagProps, kv.2.dims.isSome = true) ∧
    Exc.failsWith (compositeInputs Demo.pintReg Demo.order Demo.withTracer Demo.differingDiag) .invalidPropertyDict =
      true ∧
    Exc.test (compositeDiagnostics Demo.pintReg Demo.order Demo.withTracer Demo.differingDiag) (fun d => d.keys == ["d"]) =
      true := by
  refine ⟨by decide, by decide +kernel, by decide +kernel⟩

end Verif
