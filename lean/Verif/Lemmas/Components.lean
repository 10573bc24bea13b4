import Verif.Lemmas.Tracers
import Verif.Lemmas.Restore
import Verif.Spec.Components
/-! # Lemmas about components -/

namespace Verif

/-- Keys of restored outputs. -/
theorem restore_keys {raw : Dict NDArray} {outProps : PropDict} {state : State}
    {inProps : PropDict} {ign : List String} {out : Dict DataArray}
    (hn : outProps.keys.Nodup)
    (h : restoreDataArrays raw outProps state inProps ign false = .ok out) :
    ∀ k, k ∈ out.keys ↔ k ∈ outProps.keys ∧ k ∉ ign := by
  unfold restoreDataArrays at h
  obtain ⟨wl, hw, h⟩ := Exc.bind_ok_iff.1 h
  obtain ⟨ds, hds, h⟩ := Exc.bind_ok_iff.1 h
  simp only [Bool.false_eq_true, if_false] at hds h
  obtain ⟨rest, e1, e2, e3, e4⟩ := extractOutDims_ok hds (by simpa using hn)
  simp only [List.nil_append] at e1
  subst e1
  obtain ⟨l1, l2, l3⟩ := restoreLoop_ok h (e4.nodup hn) (fun nd hnd => (e2 nd hnd).1)
  intro k
  rw [l3 k]
  simp only [Dict.keys_nil, List.not_mem_nil, false_or]
  constructor
  · intro hk
    obtain ⟨d, hd⟩ := Dict.get?_of_mem_keys hk
    exact ⟨e4.subset hk, (e2 _ (Dict.mem_of_get? hd)).1⟩
  · rintro ⟨hk, hk2⟩
    obtain ⟨p, hp⟩ := Dict.get?_of_mem_keys hk
    obtain ⟨d, _, hd⟩ := e3 _ (Dict.mem_of_get? hp) hk2
    exact Dict.mem_keys_of_mem hd

theorem mem_wantedAliases {inProps : PropDict} {name : String} {p : QProps} {k : String} :
    k ∈ wantedAliases inProps name p ↔
      p.aliasName = some k ∨ ∃ ip, inProps.get? name = some ip ∧ ip.aliasName = some k := by
  unfold wantedAliases
  rw [List.mem_append, Option.mem_toList, Option.mem_toList, Option.bind_eq_some_iff]

theorem checkMissing_ok {inProps props : PropDict} {ign : List String} {raw : Dict NDArray} {u : Unit} :
    checkMissing inProps props ign raw = .ok u ↔ ¬ Omitted inProps props ign raw := by
  have key : (∀ kv ∈ props, kv.1 ∈ raw.keys ∨ kv.1 ∈ ign ∨
      ∃ al ∈ wantedAliases inProps kv.1 kv.2, al ∈ raw.keys) ↔ ¬ Omitted inProps props ign raw := by
    unfold Omitted MayReturn
    simp only [mem_wantedAliases]
    constructor
    · rintro h ⟨kv, hkv, h1, h2⟩
      rcases h kv hkv with h | h | ⟨al, ha, h⟩
      · exact h2 _ h (Or.inl rfl)
      · exact h1 h
      · exact h2 _ h (Or.inr ha)
    · intro h kv hkv
      by_contra hc
      simp only [not_or, not_exists, not_and] at hc
      refine h ⟨kv, hkv, hc.2.1, ?_⟩
      rintro k hk (rfl | hr)
      · exact hc.1 hk
      · exact hc.2.2 k hr hk
  unfold checkMissing
  rw [← key]
  split <;> simp_all

theorem checkExtra_ok {inProps props : PropDict} {raw : Dict NDArray} {u : Unit} :
    checkExtra inProps props raw = .ok u ↔ ¬ Undeclared inProps props raw := by
  have key : (∀ k ∈ raw.keys, k ∈ props.keys ∨ ∃ kv ∈ props, k ∈ wantedAliases inProps kv.1 kv.2) ↔
      ¬ Undeclared inProps props raw := by
    unfold Undeclared MayReturn
    simp only [mem_wantedAliases]
    constructor
    · rintro h ⟨k, hk, h2⟩
      rcases h k hk with h | ⟨kv, hkv, h⟩
      · obtain ⟨kv, hkv, rfl⟩ := List.mem_map.1 h
        exact h2 kv hkv (Or.inl rfl)
      · exact h2 kv hkv (Or.inr h)
    · intro h k hk
      by_contra hc
      refine h ⟨k, hk, ?_⟩
      rintro kv hkv (rfl | hr)
      · exact hc (Or.inl (Dict.mem_keys_of_mem hkv))
      · exact hc (Or.inr ⟨kv, hkv, hr⟩)
  unfold checkExtra
  rw [← key]
  split <;> simp_all

theorem checkMissing_cases (inProps props : PropDict) (ign : List String) (raw : Dict NDArray) :
    (checkMissing inProps props ign raw = .ok () ∧ ¬ Omitted inProps props ign raw) ∨
    (checkMissing inProps props ign raw = .error .missingOutput ∧ Omitted inProps props ign raw) := by
  by_cases h : Omitted inProps props ign raw
  · right
    refine ⟨?_, h⟩
    have := (checkMissing_ok (u := ())).not.2 (not_not.2 h)
    unfold checkMissing at *
    split at this
    · exact absurd rfl this
    · rename_i hc; rw [if_neg hc]
  · exact Or.inl ⟨checkMissing_ok.2 h, h⟩

theorem checkExtra_cases (inProps props : PropDict) (raw : Dict NDArray) :
    (checkExtra inProps props raw = .ok () ∧ ¬ Undeclared inProps props raw) ∨
    (checkExtra inProps props raw = .error .extraOutput ∧ Undeclared inProps props raw) := by
  by_cases h : Undeclared inProps props raw
  · right
    refine ⟨?_, h⟩
    have := (checkExtra_ok (u := ())).not.2 (not_not.2 h)
    unfold checkExtra at *
    split at this
    · exact absurd rfl this
    · rename_i hc; rw [if_neg hc]
  · exact Or.inl ⟨checkExtra_ok.2 h, h⟩

theorem checkRaw_ok {inProps props : PropDict} {ign : List String} {raw : Dict NDArray} {u : Unit} :
    checkRaw inProps props ign raw = .ok u ↔
      ¬ Omitted inProps props ign raw ∧ ¬ Undeclared inProps props raw := by
  unfold checkRaw
  rw [Exc.bind_ok_iff]
  simp only [checkMissing_ok, checkExtra_ok]
  constructor
  · rintro ⟨_, h⟩; exact h
  · intro h; exact ⟨(), h⟩

/-- Which error the checks raise. -/
theorem checkRaw_cases (inProps props : PropDict) (ign : List String) (raw : Dict NDArray) :
    (checkRaw inProps props ign raw = .ok () ∧ ¬ Omitted inProps props ign raw ∧
      ¬ Undeclared inProps props raw) ∨
    (checkRaw inProps props ign raw = .error .missingOutput ∧ Omitted inProps props ign raw) ∨
    (checkRaw inProps props ign raw = .error .extraOutput ∧ ¬ Omitted inProps props ign raw ∧
      Undeclared inProps props raw) := by
  unfold checkRaw
  rcases checkMissing_cases inProps props ign raw with ⟨h1, h2⟩ | ⟨h1, h2⟩
  · rcases checkExtra_cases inProps props raw with ⟨h3, h4⟩ | ⟨h3, h4⟩
    · left; rw [h1, h3]; exact ⟨rfl, h2, h4⟩
    · right; right; rw [h1, h3]; exact ⟨rfl, h2, h4⟩
  · right; left; rw [h1]; exact ⟨rfl, h2⟩

/-! ## Names -/

theorem tendencyName_inj {a b inst : String} (h : tendencyName a inst = tendencyName b inst) : a = b := by
  unfold tendencyName at h
  have h' := congrArg String.toList h
  simp only [String.toList_append, List.append_assoc] at h'
  have := List.append_cancel_right h'
  exact String.ext this

theorem insertTendencies_get? {inst : String} {tend diag : Dict DataArray} (hn : tend.keys.Nodup) :
    (∀ n v, tend.get? n = some v → (insertTendencies inst tend diag).get? (tendencyName n inst) = some v) ∧
    (∀ k, (∀ n ∈ tend.keys, k ≠ tendencyName n inst) → (insertTendencies inst tend diag).get? k = diag.get? k) := by
  induction tend generalizing diag with
  | nil => simp [insertTendencies]
  | cons nv tend ih =>
    obtain ⟨n, v⟩ := nv
    rw [Dict.keys_cons, List.nodup_cons] at hn
    unfold insertTendencies
    obtain ⟨i1, i2⟩ := ih (diag := diag.set (tendencyName n inst) v) hn.2
    constructor
    · intro m w hm
      rw [Dict.get?_cons] at hm
      split at hm
      · rename_i e; subst e; cases hm
        rw [i2, Dict.get?_set_self]
        intro m hm e
        exact hn.1 (tendencyName_inj e ▸ hm)
      · exact i1 m w hm
    · intro k hk
      rw [i2 k (fun m hm => hk m (by simp [hm])), Dict.get?_set_ne]
      exact fun e => hk n (by simp) e.symm

theorem insertTendencies_keys (inst : String) (tend diag : Dict DataArray) (k : String) :
    k ∈ (insertTendencies inst tend diag).keys ↔
      k ∈ diag.keys ∨ ∃ n ∈ tend.keys, k = tendencyName n inst := by
  induction tend generalizing diag with
  | nil => simp [insertTendencies]
  | cons nv tend ih =>
    obtain ⟨n, v⟩ := nv
    unfold insertTendencies
    rw [ih, Dict.mem_keys_set]
    simp only [Dict.keys_cons, List.mem_cons, exists_eq_or_imp]
    constructor
    · rintro ((h | h) | h) <;> simp [h]
    · rintro (h | h | h) <;> simp [h]

/-! ## Construction -/

/-- The diagnostics inserted for tendencies, with `f` applied to the units. -/
def inserted (f : String → String) (inst : String) (inProps outProps : PropDict) : PropDict :=
  outProps.map fun kv => (tendencyName kv.1 inst,
    { dims := effDims inProps kv.1 kv.2, units := kv.2.units.map f })

theorem keys_inserted (f : String → String) (inst : String) (inProps outProps : PropDict) :
    (inserted f inst inProps outProps).keys = outProps.keys.map (tendencyName · inst) := by
  unfold inserted Dict.keys
  rw [List.map_map, List.map_map]; rfl

theorem nodup_keys_inserted {f : String → String} {inst : String} {inProps outProps : PropDict}
    (hn : outProps.keys.Nodup) : (inserted f inst inProps outProps).keys.Nodup := by
  rw [keys_inserted]
  exact List.Nodup.map_on (fun a _ b _ h => tendencyName_inj h) hn

theorem insertedDims_eq {inProps : PropDict} {name : String} {p : QProps} {d : List String} :
    insertedDims inProps name p = .ok d ↔ effDims inProps name p = some d := by
  unfold insertedDims effDims
  cases p.dims with
  | some d' => simp
  | none =>
    simp only [Option.none_or]
    cases (inProps.get? name).bind (·.dims) <;> simp

theorem insertTendencyProps_ok {inst : String} {inProps outProps diag diag' : PropDict}
    {added added' : List String}
    (h : insertTendencyProps inst inProps outProps diag added = .ok (diag', added')) :
    diag' = diag.update (inserted id inst inProps outProps) ∧
    added' = added ++ outProps.keys.map (tendencyName · inst) ∧
    ∀ kv ∈ outProps, ∃ d, effDims inProps kv.1 kv.2 = some d := by
  induction outProps generalizing diag added with
  | nil => cases h; simp [inserted]
  | cons kv outProps ih =>
    obtain ⟨name, p⟩ := kv
    unfold insertTendencyProps at h
    obtain ⟨d, hd, h⟩ := Exc.bind_ok_iff.1 h
    rw [insertedDims_eq] at hd
    obtain ⟨h1, h2, h3⟩ := ih h
    refine ⟨?_, ?_, ?_⟩
    · rw [h1]; simp [inserted, Dict.update_cons, hd]
    · rw [h2]; simp
    · intro kv hkv
      rcases List.mem_cons.1 hkv with rfl | hkv
      · exact ⟨d, hd⟩
      · exact h3 kv hkv

/-- Inputs added by a Stepper: the outputs that are not inputs. -/
def addedInputs (inProps outProps : PropDict) : PropDict :=
  (outProps.filter fun kv => kv.1 ∉ inProps.keys).map fun kv =>
    (kv.1, { dims := kv.2.dims, units := kv.2.units })

theorem effDims_set_ne {inp : PropDict} {n k : String} {q p : QProps} (h : n ≠ k) :
    effDims (inp.set n q) k p = effDims inp k p := by
  unfold effDims; rw [Dict.get?_set_ne _ _ h]

theorem inserted_congr {f : String → String} {inst : String} {inp inp' outProps : PropDict}
    (h : ∀ kv ∈ outProps, effDims inp' kv.1 kv.2 = effDims inp kv.1 kv.2) :
    inserted f inst inp' outProps = inserted f inst inp outProps := by
  unfold inserted
  apply List.map_congr_left
  intro kv hkv
  rw [h kv hkv]

theorem insertStepperProps_ok {inst : String} {outProps diag diag' inp inp' : PropDict}
    {added added' : List String} (hn : outProps.keys.Nodup)
    (h : insertStepperProps inst outProps diag inp added = (diag', inp', .ok added')) :
    diag' = diag.update (inserted perSecond inst inp outProps) ∧
    added' = added ++ outProps.keys.map (tendencyName · inst) ∧
    inp' = inp ++ addedInputs inp outProps ∧
    ∀ kv ∈ outProps, ∃ d u ip, effDims inp kv.1 kv.2 = some d ∧ kv.2.units = some u ∧
      inp'.get? kv.1 = some ip ∧ ip.dims = some d ∧ ip.units = some u := by
  induction outProps generalizing diag inp added with
  | nil =>
    simp only [insertStepperProps, Prod.mk.injEq, Except.ok.injEq] at h
    obtain ⟨rfl, rfl, rfl⟩ := h
    simp [inserted, addedInputs]
  | cons kv outProps ih =>
    obtain ⟨name, p⟩ := kv
    rw [Dict.keys_cons, List.nodup_cons] at hn
    unfold insertStepperProps at h
    cases hu : p.units with
    | none => rw [hu] at h; simp at h
    | some u =>
      rw [hu] at h
      cases hd : insertedDims inp name p with
      | error e => rw [hd] at h; simp at h
      | ok d =>
        rw [hd] at h
        have hd' := insertedDims_eq.1 hd
        dsimp only at h
        have hne : ∀ kv ∈ outProps, name ≠ kv.1 :=
          fun kv hkv e => hn.1 (by rw [e]; exact Dict.mem_keys_of_mem (kv := kv) hkv)
        cases hi : Dict.get? inp name with
        | none =>
          rw [hi] at h
          dsimp only at h
          have hnk : name ∉ inp.keys := (Dict.get?_eq_none_iff _ _).1 hi
          obtain ⟨h1, h2, h3, h4⟩ := ih hn.2 h
          have hpd : p.dims = some d := by
            unfold effDims at hd'; rw [hi] at hd'; simpa using hd'
          have hcong : ∀ kv ∈ outProps, effDims (inp.set name { dims := some d, units := some u }) kv.1 kv.2
              = effDims inp kv.1 kv.2 := fun kv hkv => effDims_set_ne (hne kv hkv)
          have hset := Dict.set_of_not_mem hnk ({ dims := some d, units := some u } : QProps)
          have hfil : (outProps.filter fun kv => kv.1 ∉ (inp.set name { dims := some d, units := some u }).keys)
              = outProps.filter fun kv => kv.1 ∉ inp.keys := by
            apply List.filter_congr
            intro kv hkv
            have : kv.1 ≠ name := fun e => hne kv hkv e.symm
            simp [Dict.mem_keys_set, this]
          refine ⟨?_, ?_, ?_, ?_⟩
          · rw [h1, inserted_congr hcong]
            simp [inserted, Dict.update_cons, hd', hu]
          · rw [h2]; simp
          · rw [h3]
            unfold addedInputs
            rw [hfil, hset, List.filter_cons_of_pos (by simpa using hnk)]
            simp [hpd, hu]
          · intro kv hkv
            rcases List.mem_cons.1 hkv with rfl | hkv
            · refine ⟨d, u, { dims := some d, units := some u }, hd', hu, ?_, rfl, rfl⟩
              rw [h3, Dict.get?_append]
              simp
            · obtain ⟨d', u', ip', g1, g2⟩ := h4 kv hkv
              rw [hcong kv hkv] at g1
              exact ⟨d', u', ip', g1, g2⟩
        | some ip =>
          rw [hi] at h
          dsimp only at h
          split at h
          · simp at h
          · rename_i hdd
            split at h
            · simp at h
            · rename_i huu
              simp only [ne_eq, not_not] at hdd huu
              obtain ⟨h1, h2, h3, h4⟩ := ih hn.2 h
              refine ⟨?_, ?_, ?_, ?_⟩
              · rw [h1]; simp [inserted, Dict.update_cons, hd', hu]
              · rw [h2]; simp
              · rw [h3]; unfold addedInputs
                rw [List.filter_cons_of_neg]
                simpa using Dict.mem_keys_of_get? hi
              · intro kv hkv
                rcases List.mem_cons.1 hkv with rfl | hkv
                · refine ⟨d, u, ip, hd', hu, ?_, hdd, huu⟩
                  rw [h3, Dict.get?_append, hi]; rfl
                · exact h4 kv hkv

theorem insertProps_stepper {c0 c : Class} {inst : String} {added : List String}
    (hk : c0.kind = .stepper) (hn : c0.outProps.keys.Nodup)
    (h : insertProps c0 inst = (c, .ok added)) :
    c = { c0 with diagProps := c0.diagProps.update (inserted perSecond inst c0.inProps c0.outProps)
                  inProps := c0.inProps ++ addedInputs c0.inProps c0.outProps } ∧
    added = c0.outProps.keys.map (tendencyName · inst) ∧
    ∀ kv ∈ c0.outProps, ∃ d u ip, effDims c0.inProps kv.1 kv.2 = some d ∧ kv.2.units = some u ∧
      c.inProps.get? kv.1 = some ip ∧ ip.dims = some d ∧ ip.units = some u := by
  unfold insertProps at h
  rw [hk] at h
  dsimp only at h
  rw [Prod.mk.injEq] at h
  have h' : insertStepperProps inst c0.outProps c0.diagProps c0.inProps [] =
      ((insertStepperProps inst c0.outProps c0.diagProps c0.inProps []).1,
       (insertStepperProps inst c0.outProps c0.diagProps c0.inProps []).2.1, .ok added) := by
    rw [← h.2]
  obtain ⟨h1, h2, h3, h4⟩ := insertStepperProps_ok hn h'
  rw [h3] at h4
  rw [← h.1, h1, h3]
  exact ⟨by rw [hk], by simpa using h2, h4⟩

/-- What a successful construction did. -/
theorem construct_ok {R : Registry} {g0 g1 : Tracers} {c0 c : Class} {tid : Bool} {name : String}
    {i : Inst} (h : construct R g0 c0 tid name = (g1, c, .ok i)) :
    runCheckers R c0 = .ok () ∧ i.name = name ∧ i.tid = tid ∧
    (tid = false → c = c0 ∧ i.ignored = []) ∧
    (tid = true → insertProps c0 name = (c, .ok i.ignored)) ∧
    makePacker g0 c = (g1, .ok i.packer) := by
  unfold construct at h
  cases hc : runCheckers R c0 with
  | error e => rw [hc] at h; simp at h
  | ok u =>
    rw [hc] at h
    dsimp only at h
    cases hins : (if tid = true then insertProps c0 name else (c0, .ok [])).2 with
    | error e => rw [hins] at h; simp at h
    | ok added =>
      rw [hins] at h
      simp only [Prod.mk.injEq] at h
      obtain ⟨h1, h2, h3⟩ := h
      obtain ⟨p, hp, h3⟩ := Exc.bind_ok_iff.1 h3
      cases h3
      refine ⟨rfl, rfl, rfl, ?_, ?_, ?_⟩
      · rintro rfl
        simp at h2 hins
        exact ⟨h2.symm, hins⟩
      · rintro rfl
        simp only [if_true] at h2 hins
        exact Prod.ext h2 hins
      · rw [h2] at h1 hp
        exact Prod.ext h1 hp

theorem insertProps_kind (c : Class) (inst : String) : (insertProps c inst).1.kind = c.kind ∧
    (insertProps c inst).1.outProps = c.outProps ∧ (insertProps c inst).1.usesTracers = c.usesTracers ∧
    (insertProps c inst).1.prepend = c.prepend ∧ (insertProps c inst).1.tracerDims = c.tracerDims ∧
    (insertProps c inst).1.tendencyTimeUnit = c.tendencyTimeUnit := by
  unfold insertProps
  split
  · simp
  · simp
  · split <;> simp

theorem insertProps_tendency {c0 c : Class} {inst : String} {added : List String}
    (hk : c0.kind = .tendency ∨ c0.kind = .implicit)
    (h : insertProps c0 inst = (c, .ok added)) :
    c = { c0 with diagProps := c0.diagProps.update (inserted id inst c0.inProps c0.outProps) } ∧
    added = c0.outProps.keys.map (tendencyName · inst) ∧
    ∀ kv ∈ c0.outProps, ∃ d, effDims c0.inProps kv.1 kv.2 = some d := by
  have h' : (match insertTendencyProps inst c0.inProps c0.outProps c0.diagProps [] with
      | .ok r => (({ c0 with diagProps := r.1 } : Class), (.ok r.2 : Except Err (List String)))
      | .error e => (c0, .error e)) = (c, .ok added) := by
    unfold insertProps at h
    rcases hk with hk | hk <;> · rw [hk] at h ⊢; exact h
  cases hi : insertTendencyProps inst c0.inProps c0.outProps c0.diagProps [] with
  | error e => rw [hi] at h'; simp at h'
  | ok x =>
    obtain ⟨d', a'⟩ := x
    rw [hi] at h'
    simp only [Prod.mk.injEq, Except.ok.injEq] at h'
    obtain ⟨h1, h2, h3⟩ := insertTendencyProps_ok hi
    exact ⟨by rw [← h'.1, h1], by rw [← h'.2, h2]; simp, h3⟩

theorem makePacker_ok {g g1 : Tracers} {c : Class} {p : Option Packer}
    (h : makePacker g c = (g1, .ok p)) :
    (c.kind = .diagnostic ∨ c.usesTracers = false → p = none) ∧
    (c.kind ≠ .diagnostic → c.usesTracers = true → ∃ td, c.tracerDims = some td ∧
      p = some { prepend := c.prepend, dims := td, outNames := c.outProps.keys }) := by
  unfold makePacker at h
  by_cases hc : c.kind ≠ .diagnostic ∧ c.usesTracers = true
  · rw [if_pos hc] at h
    refine ⟨?_, ?_⟩
    · rintro (h' | h')
      · exact absurd h' hc.1
      · rw [hc.2] at h'; cases h'
    · intro _ _
      cases htd : c.tracerDims with
      | none => rw [htd] at h; simp at h
      | some td =>
        rw [htd] at h
        dsimp only at h
        rw [Prod.mk.injEq] at h
        obtain ⟨q, hq, h2⟩ := Exc.bind_ok_iff.1 h.2
        cases h2
        refine ⟨td, rfl, ?_⟩
        unfold createPacker at hq
        dsimp only at hq
        split at hq
        · cases hq
        · cases hq; rfl
  · rw [if_neg hc] at h
    rw [Prod.mk.injEq] at h
    cases h.2
    refine ⟨fun _ => rfl, fun h1 h2 => absurd ⟨h1, h2⟩ hc⟩

/-! ## Tracers in calls -/

theorem unpack_keys {g : Tracers} {p : Packer} {arr : NDArray} {state : State} {mul : String}
    {out : Dict DataArray} (h : p.unpack g arr state mul = .ok out) :
    ∀ k, k ∈ out.keys ↔ k ∈ g.units.keys ∨ k ∈ p.prepend.map (·.1) := by
  unfold Packer.unpack at h
  obtain ⟨qd, hq, h⟩ := Exc.bind_ok_iff.1 h
  obtain ⟨raw, hr, h⟩ := Exc.bind_ok_iff.1 h
  intro k
  rw [restore_keys (by rw [Dict.keys_mapVal]; exact tracerProps_nodup _ _ _) h k, Dict.keys_mapVal,
    mem_keys_tracerProps]
  simp [or_comm]

theorem takeTracers_keys {g : Tracers} {i : Inst} {raw : Dict NDArray} {state : State} {mul : String}
    {tr : Dict DataArray × Dict NDArray} (h : takeTracers g i raw state mul = .ok tr) :
    (∀ k, k ∈ tr.1.keys ↔ ∃ p, i.packer = some p ∧ (k ∈ g.units.keys ∨ k ∈ p.prepend.map (·.1))) ∧
    (i.packer = none → tr = ([], raw)) ∧ (i.packer ≠ none → tr.2 = raw.erase "tracers") := by
  unfold takeTracers at h
  cases hp : i.packer with
  | none => rw [hp] at h; cases h; simp
  | some p =>
    rw [hp] at h
    obtain ⟨t, ht, h⟩ := Exc.bind_ok_iff.1 h
    obtain ⟨out, ho, h⟩ := Exc.bind_ok_iff.1 h
    cases h
    refine ⟨?_, by simp, by simp⟩
    intro k
    rw [unpack_keys ho k]
    simp

end Verif

namespace Verif

/-! ## Exceptions raised while restoring -/

/-- The exception, if any, is not one of the two output-check exceptions. -/
def Quiet {α : Type} (x : Except Err α) : Prop :=
  ∀ e, x = .error e → e ≠ .missingOutput ∧ e ≠ .extraOutput

theorem Quiet.ok {α : Type} (a : α) : Quiet (.ok a : Except Err α) := by intro e h; cases h
theorem Quiet.err {α : Type} {e : Err} (h : e ≠ .missingOutput ∧ e ≠ .extraOutput) :
    Quiet (.error e : Except Err α) := by intro e' h'; cases h'; exact h
theorem Quiet.bind {α β : Type} {x : Except Err α} {f : α → Except Err β} (hx : Quiet x)
    (hf : ∀ a, Quiet (f a)) : Quiet (x >>= f) := by
  intro e h
  rcases Exc.bind_error_iff.1 h with h | ⟨a, _, h⟩
  · exact hx e h
  · exact hf a e h

theorem Quiet.get {α : Type} (d : Dict α) (k : String) : Quiet (d.get k) := by
  intro e h; rw [(Dict.get_eq_error h).1]; decide

theorem Quiet.mapM {α β : Type} {f : α → Except Err β} (hf : ∀ a, Quiet (f a)) (l : List α) :
    Quiet (l.mapM f) := by
  intro e h
  obtain ⟨x, _, hx⟩ := mapM_error h
  exact hf x e hx

theorem quiet_reshape (a : NDArray) (s : List Nat) : Quiet (a.reshape s) := by
  unfold NDArray.reshape; split
  · exact Quiet.ok _
  · exact Quiet.err (by decide)

theorem quiet_learnLens (zs : List (String × Nat)) (lens : Dict Nat) : Quiet (learnLens zs lens) := by
  intro e h; rw [learnLens_error h]; decide

theorem quiet_matchLoop (state : State) (props : PropDict) (w : List String) (lens : Dict Nat) :
    Quiet (matchLoop state props w lens) := by
  induction props generalizing w lens with
  | nil => exact Quiet.ok _
  | cons kv props ih =>
    unfold matchLoop
    refine Quiet.bind ?_ fun du => Quiet.bind ?_ fun a => Quiet.bind (quiet_learnLens _ _) fun l => ?_
    · unfold ensureDimsUnits; split
      · exact Quiet.err (by decide)
      · exact Quiet.err (by decide)
      · exact Quiet.ok _
    · unfold State.da; split
      · exact Quiet.ok _
      · exact Quiet.err (by decide)
      · exact Quiet.err (by decide)
    · dsimp only; split
      · exact Quiet.err (by decide)
      · exact ih _ _

theorem quiet_getWildcard (state : State) (props : PropDict) : Quiet (getWildcard state props) := by
  unfold getWildcard
  refine Quiet.bind (quiet_matchLoop _ _ _ _) fun r => ?_
  split <;> exact Quiet.ok _

theorem quiet_extractOutDims (inProps : PropDict) (ign : List String) (outProps : PropDict)
    (acc : Dict (List String)) : Quiet (extractOutDims inProps ign outProps acc) := by
  induction outProps generalizing acc with
  | nil => exact Quiet.ok _
  | cons kv outProps ih =>
    unfold extractOutDims
    split
    · exact ih _
    · split
      · exact ih _
      · split
        · exact Quiet.err (by decide)
        · split
          · exact Quiet.err (by decide)
          · exact ih _

theorem quiet_restoreOne (raw : Dict NDArray) (outProps inProps : PropDict)
    (wild : Option (List String)) (lens : Dict Nat) (name : String) (d : List String) :
    Quiet (restoreOne raw outProps inProps wild lens name d) := by
  unfold restoreOne
  refine Quiet.bind (Quiet.get _ _) fun a => Quiet.bind ?_ fun r => ?_
  · split
    · dsimp only
      split
      · exact Quiet.bind (Quiet.mapM (fun _ => Quiet.get _ _) _) fun _ => Quiet.err (by decide)
      · refine Quiet.bind ?_ fun ds => ?_
        · unfold fillDims
          exact Quiet.bind (Quiet.mapM (fun _ => Quiet.get _ _) _) fun _ => Quiet.ok _
        · split
          · exact Quiet.err (by decide)
          · exact Quiet.ok _
    · refine Quiet.bind ?_ fun _ => Quiet.ok _
      unfold checkArrayShape
      split
      · exact Quiet.err (by decide)
      · split
        · exact Quiet.ok _
        · exact Quiet.err (by decide)
  · split
    · exact Quiet.err (by decide)
    · refine Quiet.bind ?_ fun _ => Quiet.ok _
      unfold DataArray.mk'
      split
      · exact Quiet.ok _
      · exact Quiet.err (by decide)

theorem quiet_restoreLoop (raw : Dict NDArray) (outProps inProps : PropDict)
    (wild : Option (List String)) (ign : List String) (ds : Dict (List String)) (lens : Dict Nat)
    (out : Dict DataArray) : Quiet (restoreLoop raw outProps inProps wild ign ds lens out) := by
  induction ds generalizing lens out with
  | nil => exact Quiet.ok _
  | cons nd ds ih =>
    unfold restoreLoop
    split
    · exact ih _ _
    · exact Quiet.bind (quiet_restoreOne _ _ _ _ _ _ _) fun r => ih _ _

theorem quiet_restore (raw : Dict NDArray) (outProps : PropDict) (state : State)
    (inProps : PropDict) (ign : List String) (im : Bool) :
    Quiet (restoreDataArrays raw outProps state inProps ign im) := by
  unfold restoreDataArrays
  exact Quiet.bind (quiet_getWildcard _ _) fun wl =>
    Quiet.bind (quiet_extractOutDims _ _ _ _) fun _ => quiet_restoreLoop _ _ _ _ _ _ _ _

theorem quiet_zipWith (f : Rat → Rat → Rat) (a b : NDArray) : Quiet (NDArray.zipWith f a b) := by
  unfold NDArray.zipWith
  split
  · exact Quiet.err (by decide)
  · exact Quiet.ok _

theorem quiet_insertDifferences (inst : String) (rawS rawN : Dict NDArray) (dt : Int)
    (l : List String) (diag : Dict NDArray) : Quiet (insertDifferences inst rawS rawN dt l diag) := by
  induction l generalizing diag with
  | nil => exact Quiet.ok _
  | cons n l ih =>
    unfold insertDifferences
    exact Quiet.bind (Quiet.get _ _) fun _ => Quiet.bind (Quiet.get _ _) fun _ =>
      Quiet.bind (quiet_zipWith _ _ _) fun _ => ih _

/-- The checks common to all calls: with `raw` returned for `props`. -/
theorem checks_order (inProps : PropDict) (pA pB : PropDict) (ignA ignB : List String)
    (rawA rawB : Dict NDArray) {α : Type} (rest : Except Err α)
    (hrest : ∀ e, rest = .error e → e ≠ .missingOutput ∧ e ≠ .extraOutput) :
    let res := checkRaw inProps pA ignA rawA >>= fun _ => checkRaw inProps pB ignB rawB >>= fun _ => rest
    ((Omitted inProps pA ignA rawA ∨ Omitted inProps pB ignB rawB) →
      ¬ Undeclared inProps pA rawA → res = .error .missingOutput) ∧
    ((Undeclared inProps pA rawA ∨ Undeclared inProps pB rawB) →
      ¬ Omitted inProps pA ignA rawA → ¬ Omitted inProps pB ignB rawB → res = .error .extraOutput) ∧
    ((Omitted inProps pA ignA rawA ∨ Omitted inProps pB ignB rawB ∨
      Undeclared inProps pA rawA ∨ Undeclared inProps pB rawB) →
      res = .error .missingOutput ∨ res = .error .extraOutput) ∧
    (res = .error .missingOutput → Omitted inProps pA ignA rawA ∨ Omitted inProps pB ignB rawB) ∧
    (res = .error .extraOutput → Undeclared inProps pA rawA ∨ Undeclared inProps pB rawB) := by
  dsimp only
  rcases checkRaw_cases inProps pA ignA rawA with ⟨h, a1, a2⟩ | ⟨h, a1⟩ | ⟨h, a1, a2⟩ <;> rw [h]
  · rcases checkRaw_cases inProps pB ignB rawB with ⟨h', b1, b2⟩ | ⟨h', b1⟩ | ⟨h', b1, b2⟩ <;> rw [h']
    · simp only [Exc.ok_bind]
      refine ⟨by tauto, by tauto, by tauto, ?_, ?_⟩
      · intro hr; exact absurd rfl (hrest _ hr).1
      · intro hr; exact absurd rfl (hrest _ hr).2
    · simp only [Exc.ok_bind, Exc.error_bind, Except.error.injEq, reduceCtorEq]; tauto
    · simp only [Exc.ok_bind, Exc.error_bind, Except.error.injEq, reduceCtorEq]; tauto
  · simp only [Exc.error_bind, Except.error.injEq, reduceCtorEq]; tauto
  · simp only [Exc.error_bind, Except.error.injEq, reduceCtorEq]; tauto

theorem rawInputs_keys {R : Registry} {state : State} {wild : List String} {lens : Dict Nat}
    {props : PropDict} {out0 out : Dict NDArray} (h : rawInputs R state wild lens props out0 = .ok out) :
    (∀ kv ∈ props, outName kv ∈ out.keys) ∧ ∀ k ∈ out0.keys, k ∈ out.keys := by
  induction props generalizing out0 with
  | nil => cases h; simp
  | cons kv props ih =>
    obtain ⟨name, p⟩ := kv
    unfold rawInputs at h
    obtain ⟨r, hr, h⟩ := Exc.bind_ok_iff.1 h
    obtain ⟨i1, i2⟩ := ih h
    have hname : r.1 = outName (name, p) := by
      unfold rawInput at hr
      obtain ⟨_, _, hr⟩ := Exc.bind_ok_iff.1 hr
      obtain ⟨_, _, hr⟩ := Exc.bind_ok_iff.1 hr
      obtain ⟨_, _, hr⟩ := Exc.bind_ok_iff.1 hr
      cases hr; rfl
    refine ⟨?_, fun k hk => i2 k ((Dict.mem_keys_set _ _ _ _).2 (Or.inr hk))⟩
    intro kv hkv
    rcases List.mem_cons.1 hkv with rfl | hkv
    · rw [← hname]; exact i2 _ ((Dict.mem_keys_set _ _ _ _).2 (Or.inl rfl))
    · exact i1 kv hkv

/-! ## The checks of the constructors -/

/-- The check succeeded and `P` holds, or it raised InvalidPropertyDictError and
`P` does not hold. -/
def Decides (x : Except Err Unit) (P : Prop) : Prop :=
  (x = .ok () ∧ P) ∨ (x = .error .invalidPropertyDict ∧ ¬ P)

theorem Decides.bind {x y : Except Err Unit} {P Q : Prop} (hx : Decides x P) (hy : P → Decides y Q) :
    Decides (x >>= fun _ => y) (P ∧ Q) := by
  rcases hx with ⟨h, hp⟩ | ⟨h, hp⟩
  · rw [h]
    rcases hy hp with ⟨h', hq⟩ | ⟨h', hq⟩
    · exact Or.inl ⟨h', hp, hq⟩
    · exact Or.inr ⟨h', fun hc => hq hc.2⟩
  · rw [h]; exact Or.inr ⟨rfl, fun hc => hp hc.1⟩

theorem Decides.congr {x : Except Err Unit} {P Q : Prop} (h : Decides x P) (e : P ↔ Q) : Decides x Q := by
  unfold Decides at *; rw [← e]; exact h

theorem decides_inputEntries (props : PropDict) :
    Decides (checkInputEntries props) (∀ kv ∈ props, kv.2.dims.isSome ∧ kv.2.units.isSome) := by
  induction props with
  | nil => left; simp [checkInputEntries]
  | cons kv props ih =>
    obtain ⟨n, p⟩ := kv
    unfold checkInputEntries
    cases hu : p.units with
    | none => right; simp [hu]
    | some u =>
      cases hd : p.dims with
      | none => right; simp [hd]
      | some d => apply ih.congr; simp [hu, hd]

theorem decides_aliases (props : PropDict) (seen : List String) :
    Decides (checkAliases props seen)
      ((props.filterMap (·.2.aliasName)).Nodup ∧ ∀ a ∈ props.filterMap (·.2.aliasName), a ∉ seen) := by
  induction props generalizing seen with
  | nil => left; simp [checkAliases]
  | cons kv props ih =>
    obtain ⟨n, p⟩ := kv
    unfold checkAliases
    cases ha : p.aliasName with
    | none => apply (ih seen).congr; simp [ha]
    | some al =>
      dsimp only
      have hf : List.filterMap (fun x : String × QProps => x.2.aliasName) ((n, p) :: props) =
          al :: props.filterMap (·.2.aliasName) := by simp [ha]
      rw [hf]
      split
      · rename_i hs
        right
        refine ⟨rfl, fun h => h.2 al (by simp) hs⟩
      · rename_i hs
        apply (ih (al :: seen)).congr
        simp only [List.nodup_cons, List.mem_cons]
        constructor
        · rintro ⟨h1, h2⟩
          refine ⟨⟨fun hc => h2 al hc (Or.inl rfl), h1⟩, ?_⟩
          rintro a (rfl | ha')
          · exact hs
          · exact fun hc => h2 a ha' (Or.inr hc)
        · rintro ⟨⟨h1, h2⟩, h3⟩
          refine ⟨h2, fun a ha' hc => ?_⟩
          rcases hc with rfl | hc
          · exact h1 ha'
          · exact h3 a (Or.inr ha') hc

theorem decides_aliases' (props : PropDict) : Decides (checkAliases props []) (AliasesDistinct props) := by
  apply (decides_aliases props []).congr
  unfold AliasesDistinct; simp

theorem decides_outEntries (inProps props : PropDict) :
    Decides (checkOutEntries inProps props) (Described inProps props) := by
  induction props with
  | nil => left; simp [checkOutEntries, Described]
  | cons kv props ih =>
    obtain ⟨n, p⟩ := kv
    unfold checkOutEntries
    cases hu : p.units with
    | none => right; simp [Described, hu]
    | some u =>
      dsimp only
      split
      · rename_i hc
        right
        refine ⟨rfl, ?_⟩
        intro h
        have := (h (n, p) (by simp)).2
        rcases this with h' | h'
        · simp only [Option.isNone_iff_eq_none] at hc; rw [hc.1] at h'; simp at h'
        · exact hc.2 h'
      · rename_i hc
        apply ih.congr
        unfold Described
        simp only [List.mem_cons, forall_eq_or_imp, hu, Option.isSome_some, true_and]
        constructor
        · intro h
          refine ⟨?_, h⟩
          by_contra hcc
          simp only [not_or] at hcc
          exact hc ⟨by simpa using hcc.1, hcc.2⟩
        · exact fun h => h.2

theorem decides_units {R : Registry} {f : String → String} {inProps props : PropDict}
    (hk : UnitsKnown R f inProps props)
    (hin : ∀ kv ∈ inProps, kv.2.dims.isSome ∧ kv.2.units.isSome) (hd : Described inProps props) :
    Decides (checkUnits R f inProps props) (CompatibleWith R f inProps props) := by
  induction props with
  | nil => left; simp [checkUnits, CompatibleWith]
  | cons kv props ih =>
    obtain ⟨n, p⟩ := kv
    have ih' := ih (fun kv hkv => hk kv (List.mem_cons_of_mem _ hkv))
      (fun kv hkv => hd kv (List.mem_cons_of_mem _ hkv))
    unfold checkUnits
    cases hi : Dict.get? inProps n with
    | none =>
      apply ih'.congr
      unfold CompatibleWith
      simp [hi]
    | some ip =>
      obtain ⟨iu, hiu⟩ := Option.isSome_iff_exists.1 (hin _ (Dict.mem_of_get? hi)).2
      obtain ⟨u, hu⟩ := Option.isSome_iff_exists.1 (hd (n, p) (by simp)).1
      dsimp only at hiu hu
      obtain ⟨k1, k2⟩ := hk (n, p) (by simp) ip iu u hi hiu hu
      obtain ⟨a, ha⟩ := Option.isSome_iff_exists.1 k1
      obtain ⟨b, hb⟩ := Option.isSome_iff_exists.1 k2
      simp only [hiu, hu]
      unfold Registry.unitsAreCompatible
      rw [Registry.unit_ok.2 ha, Registry.unit_ok.2 hb]
      simp only [Exc.ok_bind, decide_eq_true_eq]
      by_cases hdim : a.dim = b.dim
      · rw [if_pos hdim]
        apply ih'.congr
        unfold CompatibleWith
        simp only [List.mem_cons, forall_eq_or_imp]
        refine ⟨fun h => ⟨?_, h⟩, fun h => h.2⟩
        intro ip' iu' u' h1 h2 h3
        rw [hi] at h1; cases h1
        rw [hiu] at h2; cases h2
        rw [hu] at h3; cases h3
        exact ⟨a, b, ha, hb, hdim⟩
      · rw [if_neg hdim]
        right
        refine ⟨rfl, fun h => ?_⟩
        obtain ⟨a', b', h1, h2, h3⟩ := h (n, p) (by simp) ip iu u hi hiu hu
        rw [ha] at h1; cases h1
        rw [hb] at h2; cases h2
        exact hdim h3

theorem decides_inputChecker (props : PropDict) : Decides (inputChecker props)
    ((∀ kv ∈ props, kv.2.dims.isSome ∧ kv.2.units.isSome) ∧ AliasesDistinct props) :=
  (decides_inputEntries props).bind fun _ => decides_aliases' props

theorem decides_diagnosticChecker {R : Registry} {inProps props : PropDict}
    (hk : UnitsKnown R id inProps props)
    (hin : ∀ kv ∈ inProps, kv.2.dims.isSome ∧ kv.2.units.isSome) :
    Decides (diagnosticChecker R inProps props)
      (Described inProps props ∧ CompatibleWith R id inProps props ∧ AliasesDistinct props) :=
  (decides_outEntries _ _).bind fun hd => (decides_units hk hin hd).bind fun _ => decides_aliases' _

theorem decides_outputChecker {R : Registry} {inProps props : PropDict}
    (hk : UnitsKnown R id inProps props)
    (hin : ∀ kv ∈ inProps, kv.2.dims.isSome ∧ kv.2.units.isSome) :
    Decides (outputChecker R inProps props)
      (Described inProps props ∧ AliasesDistinct props ∧ CompatibleWith R id inProps props) :=
  (decides_outEntries _ _).bind fun hd => (decides_aliases' _).bind fun _ => decides_units hk hin hd

theorem perSecond_eq : perSecond = rateUnits := rfl

theorem decides_tendencyChecker {R : Registry} {inProps props : PropDict}
    (hk : UnitsKnown R rateUnits inProps props)
    (hin : ∀ kv ∈ inProps, kv.2.dims.isSome ∧ kv.2.units.isSome) :
    Decides (tendencyChecker R inProps props)
      (Described inProps props ∧ AliasesDistinct props ∧ CompatibleWith R rateUnits inProps props) :=
  (decides_outEntries _ _).bind fun hd => (decides_aliases' _).bind fun _ => by
    rw [perSecond_eq]; exact decides_units hk hin hd

theorem decides_runCheckers {R : Registry} {c : Class}
    (hkd : UnitsKnown R id c.inProps c.diagProps)
    (hko : c.kind ≠ .diagnostic → UnitsKnown R (outFactor c.kind) c.inProps c.outProps) :
    Decides (runCheckers R c) (ValidProps R c) := by
  unfold runCheckers
  cases hk : c.kind with
  | diagnostic =>
    refine ((decides_inputChecker c.inProps).bind fun h => decides_diagnosticChecker hkd h.1).congr ?_
    constructor
    · rintro ⟨⟨h1, h2⟩, h3, h4, h5⟩
      exact ⟨h1, h2, h3, h5, h4, fun h => absurd hk h, fun h => absurd hk h, fun h => absurd hk h⟩
    · intro h; exact ⟨⟨h.inputs, h.inAlias⟩, h.diag, h.diagUnits, h.diagAlias⟩
  | stepper =>
    have hko' := hko (by rw [hk]; decide)
    rw [hk] at hko'
    refine ((decides_inputChecker c.inProps).bind fun h => (decides_diagnosticChecker hkd h.1).bind fun _ =>
      decides_outputChecker hko' h.1).congr ?_
    constructor
    · rintro ⟨⟨h1, h2⟩, ⟨h3, h4, h5⟩, h6, h7, h8⟩
      exact ⟨h1, h2, h3, h5, h4, fun _ => h6, fun _ => h7, fun _ => by rw [hk]; exact h8⟩
    · intro h
      have hne : c.kind ≠ .diagnostic := by rw [hk]; decide
      have h8 := h.outUnits hne
      rw [hk] at h8
      exact ⟨⟨h.inputs, h.inAlias⟩, ⟨h.diag, h.diagUnits, h.diagAlias⟩, h.out hne, h.outAlias hne, h8⟩
  | tendency =>
    have hko' := hko (by rw [hk]; decide)
    rw [hk] at hko'
    refine ((decides_inputChecker c.inProps).bind fun h => (decides_tendencyChecker hko' h.1).bind fun _ =>
      decides_diagnosticChecker hkd h.1).congr ?_
    constructor
    · rintro ⟨⟨h1, h2⟩, ⟨h6, h7, h8⟩, h3, h4, h5⟩
      exact ⟨h1, h2, h3, h5, h4, fun _ => h6, fun _ => h7, fun _ => by rw [hk]; exact h8⟩
    · intro h
      have hne : c.kind ≠ .diagnostic := by rw [hk]; decide
      have h8 := h.outUnits hne
      rw [hk] at h8
      exact ⟨⟨h.inputs, h.inAlias⟩, ⟨h.out hne, h.outAlias hne, h8⟩, h.diag, h.diagUnits, h.diagAlias⟩
  | implicit =>
    have hko' := hko (by rw [hk]; decide)
    rw [hk] at hko'
    refine ((decides_inputChecker c.inProps).bind fun h => (decides_diagnosticChecker hkd h.1).bind fun _ =>
      decides_tendencyChecker hko' h.1).congr ?_
    constructor
    · rintro ⟨⟨h1, h2⟩, ⟨h3, h4, h5⟩, h6, h7, h8⟩
      exact ⟨h1, h2, h3, h5, h4, fun _ => h6, fun _ => h7, fun _ => by rw [hk]; exact h8⟩
    · intro h
      have hne : c.kind ≠ .diagnostic := by rw [hk]; decide
      have h8 := h.outUnits hne
      rw [hk] at h8
      exact ⟨⟨h.inputs, h.inAlias⟩, ⟨h.diag, h.diagUnits, h.diagAlias⟩, h.out hne, h.outAlias hne, h8⟩

theorem insertTendencyProps_isOk {inst : String} {inProps outProps : PropDict}
    (h : ∀ kv ∈ outProps, ∃ d, effDims inProps kv.1 kv.2 = some d) (diag : PropDict) (added : List String) :
    ∃ r, insertTendencyProps inst inProps outProps diag added = .ok r := by
  induction outProps generalizing diag added with
  | nil => exact ⟨_, rfl⟩
  | cons kv outProps ih =>
    obtain ⟨n, p⟩ := kv
    unfold insertTendencyProps
    obtain ⟨d, hd⟩ := h _ List.mem_cons_self
    rw [insertedDims_eq.2 hd]
    exact ih (fun kv hkv => h kv (List.mem_cons_of_mem _ hkv)) _ _

theorem effDims_of_described {inProps props : PropDict} (hd : Described inProps props)
    (hin : ∀ kv ∈ inProps, kv.2.dims.isSome ∧ kv.2.units.isSome) :
    ∀ kv ∈ props, ∃ d, effDims inProps kv.1 kv.2 = some d := by
  intro kv hkv
  unfold effDims
  rcases (hd kv hkv).2 with h | h
  · obtain ⟨d, hd⟩ := Option.isSome_iff_exists.1 h
    exact ⟨d, by rw [hd]; rfl⟩
  · obtain ⟨ip, hip⟩ := Dict.get?_of_mem_keys h
    obtain ⟨d, hd⟩ := Option.isSome_iff_exists.1 (hin _ (Dict.mem_of_get? hip)).1
    cases hp : kv.2.dims with
    | some d' => exact ⟨d', rfl⟩
    | none => exact ⟨d, by simp [hip]; exact hd⟩

/-- The extra requirement for tendencies in the diagnostics of a Stepper: an
output that is also an input has the same dims and the same unit string. -/
def SameAsInput (inProps outProps : PropDict) : Prop :=
  ∀ kv ∈ outProps, ∀ ip, inProps.get? kv.1 = some ip →
    (kv.2.dims = none ∨ kv.2.dims = ip.dims) ∧ kv.2.units = ip.units

theorem insertStepperProps_decides {inst : String} {outProps : PropDict} (hn : outProps.keys.Nodup)
    {inp : PropDict} (hd : ∀ kv ∈ outProps, kv.2.units.isSome ∧ ∃ d, effDims inp kv.1 kv.2 = some d)
    (diag : PropDict) (added : List String) :
    ((∃ a, (insertStepperProps inst outProps diag inp added).2.2 = .ok a) ∧ SameAsInput inp outProps) ∨
    ((insertStepperProps inst outProps diag inp added).2.2 = .error .invalidPropertyDict ∧
      ¬ SameAsInput inp outProps) := by
  induction outProps generalizing inp diag added with
  | nil => left; simp [insertStepperProps, SameAsInput]
  | cons kv outProps ih =>
    obtain ⟨n, p⟩ := kv
    rw [Dict.keys_cons, List.nodup_cons] at hn
    obtain ⟨h1, d, h2⟩ := hd (n, p) (by simp)
    obtain ⟨u, hu⟩ := Option.isSome_iff_exists.1 h1
    dsimp only at hu h2
    have hne : ∀ kv ∈ outProps, n ≠ kv.1 :=
      fun kv hkv e => hn.1 (by rw [e]; exact Dict.mem_keys_of_mem (kv := kv) hkv)
    unfold insertStepperProps
    rw [hu, insertedDims_eq.2 h2]
    dsimp only
    cases hi : Dict.get? inp n with
    | none =>
      dsimp only
      have heff : ∀ kv ∈ outProps, effDims (inp.set n { dims := some d, units := some u }) kv.1 kv.2
          = effDims inp kv.1 kv.2 := fun kv hkv => effDims_set_ne (hne kv hkv)
      have hs : SameAsInput (inp.set n { dims := some d, units := some u }) outProps ↔
          SameAsInput inp ((n, p) :: outProps) := by
        unfold SameAsInput
        simp only [List.mem_cons, forall_eq_or_imp, hi, reduceCtorEq, false_imp_iff, implies_true, true_and]
        constructor
        · intro h kv hkv ip hip
          exact h kv hkv ip (by rw [Dict.get?_set_ne _ _ (hne kv hkv)]; exact hip)
        · intro h kv hkv ip hip
          rw [Dict.get?_set_ne _ _ (hne kv hkv)] at hip
          exact h kv hkv ip hip
      have := ih hn.2 (inp := inp.set n { dims := some d, units := some u })
        (fun kv hkv => by rw [heff kv hkv]; exact hd kv (List.mem_cons_of_mem _ hkv))
        (diag.set (tendencyName n inst) { dims := some d, units := some (perSecond u) })
        (added ++ [tendencyName n inst])
      rw [hs] at this
      exact this
    | some ip =>
      dsimp only
      have hpd : some d = p.dims ∨ (p.dims = none ∧ some d = ip.dims) := by
        unfold effDims at h2
        cases hp : p.dims with
        | some d' => rw [hp] at h2; left; simpa using h2.symm
        | none => rw [hp, hi] at h2; right; simpa using h2.symm
      by_cases hdd : ip.dims = some d
      · rw [if_neg (by simpa using hdd)]
        by_cases huu : ip.units = some u
        · rw [if_neg (by simpa using huu)]
          have hs : SameAsInput inp outProps ↔ SameAsInput inp ((n, p) :: outProps) := by
            unfold SameAsInput
            simp only [List.mem_cons, forall_eq_or_imp]
            refine ⟨fun h => ⟨?_, h⟩, fun h => h.2⟩
            intro ip' hip'
            rw [hi] at hip'; cases hip'
            refine ⟨?_, by rw [hu, huu]⟩
            rcases hpd with h | h
            · right; rw [hdd, h]
            · left; exact h.1
          have := ih hn.2 (fun kv hkv => hd kv (List.mem_cons_of_mem _ hkv))
            (diag.set (tendencyName n inst) { dims := some d, units := some (perSecond u) })
            (added ++ [tendencyName n inst])
          rw [hs] at this
          exact this
        · rw [if_pos (by simpa using huu)]
          right
          refine ⟨rfl, fun h => ?_⟩
          have := (h (n, p) (by simp) ip hi).2
          dsimp only at this
          rw [hu] at this
          exact huu this.symm
      · rw [if_pos (by simpa using hdd)]
        right
        refine ⟨rfl, fun h => hdd ?_⟩
        have := (h (n, p) (by simp) ip hi).1
        dsimp only at this
        rcases hpd with h' | h'
        · rw [← h'] at this
          rcases this with h3 | h3
          · cases h3
          · exact h3.symm
        · exact h'.2.symm

end Verif
