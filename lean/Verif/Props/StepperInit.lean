import Verif.Model.StepperInit
import Verif.Props.CompositeConstruct
/-!
# C67: TendencyStepper with tendencies in diagnostics
-/

namespace Verif

theorem checkUnits_iff {R : Registry} {f : String → String} {inProps : PropDict} (props : PropDict) :
    checkUnits R f inProps props = .ok () ↔
      ∀ kv ∈ props, ∀ ip, inProps.get? kv.1 = some ip → UnitsFit R f ip kv.2 := by
  induction props with
  | nil => simp [checkUnits]
  | cons kv props ih =>
    obtain ⟨n, p⟩ := kv
    unfold checkUnits
    simp only [List.mem_cons, forall_eq_or_imp]
    cases hi : Dict.get? inProps n with
    | none => simp [ih]
    | some ip =>
      dsimp only
      constructor
      · intro h
        split at h
        · rename_i iu u hiu hu
          obtain ⟨b, hb, h⟩ := Exc.bind_ok_iff.1 h
          unfold Registry.unitsAreCompatible at hb
          obtain ⟨a1, ha1, hb⟩ := Exc.bind_ok_iff.1 hb
          obtain ⟨a2, ha2, hb⟩ := Exc.bind_ok_iff.1 hb
          injection hb with hb
          subst hb
          split at h
          · rename_i hd
            refine ⟨?_, ih.1 h⟩
            intro ip' h'; injection h' with h'; subst h'
            exact ⟨iu, u, a1, a2, hiu, hu, Registry.unit_ok.1 ha1, Registry.unit_ok.1 ha2, by simpa using hd⟩
          · cases h
        · cases h
      · rintro ⟨h1, h2⟩
        obtain ⟨iu, u, a, b, e1, e2, e3, e4, e5⟩ := h1 ip rfl
        rw [e1, e2]
        unfold Registry.unitsAreCompatible
        simp only [Registry.unit_ok.2 e3, Registry.unit_ok.2 e4, Exc.ok_bind, e5, decide_true, if_true]
        exact ih.2 h2

theorem decides_ok_iff {x : Except Err Unit} {P : Prop} (h : Decides x P) : x = .ok () ↔ P := by
  unfold Decides at h
  rcases h with ⟨h, hp⟩ | ⟨h, hp⟩
  · exact ⟨fun _ => hp, fun _ => h⟩
  · exact ⟨fun h' => (by rw [h] at h'; cases h'), fun h' => absurd h' hp⟩

theorem tsDiagLoop_nodup (cs : List Class) (out : PropDict) (h : out.keys.Nodup) : (tsDiagLoop cs out).keys.Nodup := by
  induction cs generalizing out with
  | nil => exact h
  | cons c cs ih => unfold tsDiagLoop; exact ih _ (Dict.nodup_keys_update h _)

theorem mem_set_cases {α : Type} {d : Dict α} {k : String} {w : α} (hn : d.keys.Nodup) {kv : String × α}
    (h : kv ∈ d.set k w) : kv = (k, w) ∨ kv ∈ d := by
  have hg := Dict.get?_of_mem (Dict.nodup_keys_set hn k w) (k := kv.1) (v := kv.2) h
  by_cases hk : k = kv.1
  · left
    rw [← hk, Dict.get?_set_self] at hg
    injection hg with hg
    exact Prod.ext hk.symm hg.symm
  · right
    rw [Dict.get?_set_ne _ _ hk] at hg
    exact Dict.mem_of_get? hg

theorem insertTs_ok {inst : String} (t diag : PropDict) (hn : diag.keys.Nodup)
    (ht : ∀ kv ∈ t, kv.2.units.isSome ∧ kv.2.dims.isSome) :
    ∃ out, insertTsTendencies inst t diag = .ok out ∧ out.keys.Nodup ∧
      ∀ kv ∈ out, kv ∈ diag ∨ ∃ e ∈ t, kv.1 = tendencyName e.1 inst ∧ kv.2.units = e.2.units ∧
        kv.2.dims = e.2.dims ∧ kv.2.aliasName = none := by
  induction t generalizing diag with
  | nil => exact ⟨diag, rfl, hn, fun kv h => Or.inl h⟩
  | cons e t ih =>
    obtain ⟨n, p⟩ := e
    obtain ⟨h1, h2⟩ := ht (n, p) (by simp)
    obtain ⟨u, hu⟩ := Option.isSome_iff_exists.1 h1
    obtain ⟨d, hd⟩ := Option.isSome_iff_exists.1 h2
    dsimp only at hu hd
    obtain ⟨out, ho, hon, hom⟩ := ih (diag.set (tendencyName n inst) { dims := some d, units := some u })
      (Dict.nodup_keys_set hn _ _) (fun kv hkv => ht kv (by simp [hkv]))
    refine ⟨out, ?_, hon, ?_⟩
    · unfold insertTsTendencies
      rw [hu, hd]; exact ho
    · intro kv hkv
      rcases hom kv hkv with h | ⟨e, he, h⟩
      · rcases mem_set_cases hn h with rfl | h
        · exact Or.inr ⟨(n, p), by simp, rfl, hu.symm, hd.symm, rfl⟩
        · exact Or.inl h
      · exact Or.inr ⟨e, by simp [he], h⟩

/-- What a successful construction without tendencies in diagnostics consists of. -/
structure Made (R : Registry) (o : SetOrder) (g : Tracers) (cs : List (Class × Obj)) (c : Class)
    (inP0 t : PropDict) : Prop where
  inputs : combineInputs R o g (cs.map (·.1)) = .ok inP0
  tend : combineTendencies R o (cs.map (·.1)) inP0 = .ok t
  out : t.mapM (fun kv => timesSecond R kv.2 >>= fun p => .ok (kv.1, p)) = .ok c.outProps
  inp : combineProperties R o [inP0, c.outProps] = .ok c.inProps
  kind : c.kind = .stepper
  notr : c.usesTracers = false

theorem tsClass_ok {R : Registry} {o : SetOrder} {g : Tracers} {cs : List (Class × Obj)} {tid : Bool} {inst : String}
    {c : Class} (h : tsClass R o g (cs.map (·.1)) tid inst = .ok c) :
    ∃ inP0 t, Made R o g cs c inP0 t := by
  unfold tsClass at h
  obtain ⟨inP, h1, h⟩ := Exc.bind_ok_iff.1 h
  obtain ⟨diag, h2, h⟩ := Exc.bind_ok_iff.1 h
  obtain ⟨outP, h3, h⟩ := Exc.bind_ok_iff.1 h
  injection h with h; subst h
  have h3' := h3
  unfold tsInputProps at h1
  obtain ⟨inP0, h4, h1⟩ := Exc.bind_ok_iff.1 h1
  rw [h3, Exc.ok_bind] at h1
  unfold tsOutputProps at h3
  obtain ⟨t, h5, h3⟩ := Exc.bind_ok_iff.1 h3
  unfold tsTendencyProps at h5
  rw [h4, Exc.ok_bind] at h5
  exact ⟨inP0, t, h4, h5, h3, h1, rfl, rfl⟩

theorem Made.outKeys {R : Registry} {o : SetOrder} {g : Tracers} {cs : List (Class × Obj)} {c : Class}
    {inP0 t : PropDict} (m : Made R o g cs c inP0 t) : c.outProps.keys = t.keys := by
  have h := m.out
  generalize c.outProps = out at h
  clear m
  induction t generalizing out with
  | nil => injection h with h; subst h; rfl
  | cons kv t ih =>
    rw [List.mapM_cons] at h
    obtain ⟨b, hb, h⟩ := Exc.bind_ok_iff.1 h
    obtain ⟨bs, hbs, h⟩ := Exc.bind_ok_iff.1 h
    obtain ⟨p, hp, hb⟩ := Exc.bind_ok_iff.1 hb
    injection hb with hb; injection h with h; subst h; subst hb
    rw [Dict.keys_cons, Dict.keys_cons, ih _ hbs]

theorem Made.outEntry {R : Registry} {o : SetOrder} {g : Tracers} {cs : List (Class × Obj)} {c : Class}
    {inP0 t : PropDict} (m : Made R o g cs c inP0 t) {kv : String × QProps} (h : kv ∈ c.outProps) :
    ∃ p, (kv.1, p) ∈ t ∧ timesSecond R p = .ok kv.2 := by
  obtain ⟨a, ha, h⟩ := mapM_ok_mem_right m.out h
  obtain ⟨p, hp, h⟩ := Exc.bind_ok_iff.1 h
  injection h with h; subst h
  exact ⟨a.2, ha, hp⟩

theorem Made.outNodup {R : Registry} {o : SetOrder} {g : Tracers} {cs : List (Class × Obj)} {c : Class}
    {inP0 t : PropDict} (m : Made R o g cs c inP0 t) : c.outProps.keys.Nodup := by
  rw [m.outKeys]; exact combineProperties_nodup m.tend

theorem Made.tendEntry {R : Registry} {o : SetOrder} {g : Tracers} {cs : List (Class × Obj)} {c : Class}
    {inP0 t : PropDict} (m : Made R o g cs c inP0 t) {kv : String × QProps} (h : kv ∈ t) :
    kv.2.units.isSome ∧ kv.2.dims.isSome := by
  constructor
  · obtain ⟨b, _, hb⟩ := mapM_ok_mem_left m.out h
    obtain ⟨p, hp, _⟩ := Exc.bind_ok_iff.1 hb
    unfold timesSecond at hp
    cases hu : kv.2.units with
    | none => rw [hu] at hp; cases hp
    | some u => rfl
  · have hg := Dict.get?_of_mem (combineProperties_nodup m.tend) (k := kv.1) (v := kv.2) h
    obtain ⟨d, hd, _⟩ := combined_dims_exact R o _ _ _ m.tend kv.1 kv.2 hg
    rw [hd]; rfl

theorem timesSecond_dims {R : Registry} {p q : QProps} (h : timesSecond R p = .ok q) :
    q.dims = p.dims ∧ ∃ u v, p.units = some u ∧ R.cleanUnits (u ++ " s") = .ok v ∧ q.units = some v := by
  unfold timesSecond at h
  cases hu : p.units with
  | none => rw [hu] at h; cases h
  | some u =>
    rw [hu] at h
    obtain ⟨v, hv, h⟩ := Exc.bind_ok_iff.1 h
    injection h with h; subst h
    exact ⟨rfl, u, v, rfl, hv, rfl⟩

theorem tsConstruct_parts {R : Registry} {o : SetOrder} {g : Tracers} {cs : List (Class × Obj)} {tid : Bool}
    {inst : String} {c : Class} (h : tsConstruct R o g cs tid inst = .ok c) :
    (∃ comp, compositeConstruct R o g .implicit cs = .ok comp ∧ ∀ n ∈ comp.outProps.keys, n ∈ c.outProps.keys) ∧
    tsClass R o g (cs.map (·.1)) tid inst = .ok c ∧ runCheckers R c = .ok () := by
  unfold tsConstruct at h
  obtain ⟨comp, h1, h⟩ := Exc.bind_ok_iff.1 h
  obtain ⟨c', h2, h⟩ := Exc.bind_ok_iff.1 h
  obtain ⟨i, h3, h⟩ := Exc.bind_ok_iff.1 h
  split at h
  · rename_i hk
    injection h with h; subst h
    exact ⟨⟨comp, h1, hk⟩, h2, (construct_ok (g1 := (construct R g c' tid inst).1)
      (c := (construct R g c' tid inst).2.1) (i := i) (by rw [← h3])).1⟩
  · cases h

/-- Without tendencies in diagnostics the stepper can be made.  With them, it can be made
exactly if each stepped quantity has the same dims and the same unit string as input and
as output, and otherwise InvalidPropertyDictError is raised. -/
theorem ts_tid_decided (R : Registry) (o : SetOrder) (g : Tracers) (cs : List (Class × Obj)) (inst : String)
    (c : Class) (h : tsConstruct R o g cs false inst = .ok c)
    (hN : ∀ n ∈ c.outProps.keys, tendencyName n inst ∉ c.inProps.keys) :
    ((∃ c', tsConstruct R o g cs true inst = .ok c') ∧ SameAsInput c.inProps c.outProps) ∨
    (tsConstruct R o g cs true inst = .error .invalidPropertyDict ∧ ¬ SameAsInput c.inProps c.outProps) := by
  obtain ⟨⟨comp, hcomp, hsub⟩, hcls, hrun⟩ := tsConstruct_parts h
  obtain ⟨inP0, t, m⟩ := tsClass_ok hcls
  have hdiag : c.diagProps = tsDiagLoop (cs.map (·.1)) [] := by
    unfold tsClass at hcls
    obtain ⟨_, _, hcls⟩ := Exc.bind_ok_iff.1 hcls
    obtain ⟨diag, h2, hcls⟩ := Exc.bind_ok_iff.1 hcls
    obtain ⟨_, _, hcls⟩ := Exc.bind_ok_iff.1 hcls
    injection hcls with hcls; subst hcls
    simpa [tsDiagProps] using h2.symm
  have hdn : c.diagProps.keys.Nodup := by rw [hdiag]; exact tsDiagLoop_nodup _ [] (by simp [Dict.keys])
  obtain ⟨diag', hins, hn', hmem⟩ := insertTs_ok (inst := inst) t c.diagProps hdn (fun kv hkv => m.tendEntry hkv)
  -- the class with tendencies in diagnostics
  have hcls' : tsClass R o g (cs.map (·.1)) true inst = .ok { c with diagProps := diag' } := by
    have hk := m.kind
    unfold tsClass at hcls ⊢
    obtain ⟨inP, h1, hcls⟩ := Exc.bind_ok_iff.1 hcls
    obtain ⟨diag, h2, hcls⟩ := Exc.bind_ok_iff.1 hcls
    obtain ⟨outP, h3, hcls⟩ := Exc.bind_ok_iff.1 hcls
    injection hcls with hcls; subst hcls
    have h4 : tsDiagProps R o g (cs.map (·.1)) true inst = .ok diag' := by
      unfold tsDiagProps tsTendencyProps
      rw [if_pos rfl, m.inputs, Exc.ok_bind, m.tend, Exc.ok_bind]
      rw [← hdiag]; exact hins
    rw [h1, h4, h3]; rfl
  -- the checkers
  unfold runCheckers at hrun
  rw [m.kind] at hrun
  obtain ⟨_, hin, hrun⟩ := Exc.bind_ok_iff.1 hrun
  obtain ⟨_, hdc, hoc⟩ := Exc.bind_ok_iff.1 hrun
  have hin' := ((decides_ok_iff (decides_inputChecker _)).1 hin).1
  have hoc0 := hoc
  unfold outputChecker at hoc
  obtain ⟨_, ho1, _⟩ := Exc.bind_ok_iff.1 hoc
  have hdesc := (decides_ok_iff (decides_outEntries _ _)).1 ho1
  have hdc' : diagnosticChecker R c.inProps diag' = .ok () := by
    unfold diagnosticChecker at hdc ⊢
    obtain ⟨_, hd1, hdc⟩ := Exc.bind_ok_iff.1 hdc
    obtain ⟨_, hd2, hd3⟩ := Exc.bind_ok_iff.1 hdc
    have hd1' := (decides_ok_iff (decides_outEntries _ _)).1 hd1
    have hd2' := (checkUnits_iff _).1 hd2
    have hd3' := (aliasesDistinct_iff hdn).1 ((decides_ok_iff (decides_aliases' _)).1 hd3)
    rw [(decides_ok_iff (decides_outEntries c.inProps diag')).2 ?_, Exc.ok_bind,
      (checkUnits_iff (R := R) (f := id) (inProps := c.inProps) diag').2 ?_, Exc.ok_bind]
    · refine (decides_ok_iff (decides_aliases' _)).2 ((aliasesDistinct_iff hn').2 ?_)
      intro a ha b hb s has hbs
      rcases hmem a ha with ha | ⟨e, _, _, _, _, hal⟩
      · rcases hmem b hb with hb | ⟨e, _, _, _, _, hbl⟩
        · exact hd3' a ha b hb s has hbs
        · rw [hbl] at hbs; cases hbs
      · rw [hal] at has; cases has
    · intro kv hkv ip hip
      rcases hmem kv hkv with hkv | ⟨e, he, hname, _⟩
      · exact hd2' kv hkv ip hip
      · exfalso
        refine hN e.1 ?_ (by rw [← hname]; exact Dict.mem_keys_of_get? hip)
        rw [m.outKeys]; exact Dict.mem_keys_of_mem he
    · intro kv hkv
      rcases hmem kv hkv with hkv | ⟨e, he, hname, hu, hd, _⟩
      · exact hd1' kv hkv
      · obtain ⟨e1, e2⟩ := m.tendEntry he
        exact ⟨by rw [hu]; exact e1, Or.inl (by rw [hd]; exact e2)⟩
  have hrun' : runCheckers R { c with diagProps := diag' } = .ok () := by
    unfold runCheckers
    simp only [m.kind, hin, Exc.ok_bind, hdc', hoc0]
  -- the insertion
  have hdec := insertStepperProps_decides (inst := inst) m.outNodup (inp := c.inProps)
    (fun kv hkv => ⟨(hdesc kv hkv).1, effDims_of_described hdesc hin' kv hkv⟩) diag' []
  have hts : tsConstruct R o g cs true inst =
      ((insertStepperProps inst c.outProps diag' c.inProps []).2.2 >>= fun _ =>
        Except.ok ({ c with diagProps := diag' } : Class)) := by
    unfold tsConstruct
    rw [hcomp, Exc.ok_bind, hcls', Exc.ok_bind]
    unfold construct
    rw [hrun']
    simp only [if_true, insertProps, m.kind]
    cases hi : (insertStepperProps inst c.outProps diag' c.inProps []).2.2 with
    | error e => rfl
    | ok a =>
      simp only [makePacker, m.notr]
      simp only [Exc.ok_bind]
      simp only [Bool.false_eq_true, and_false, if_false, Exc.ok_bind]
      rw [if_pos hsub]
  rw [hts]
  rcases hdec with ⟨⟨a, ha⟩, hs⟩ | ⟨ha, hs⟩
  · left; rw [ha]; exact ⟨⟨_, rfl⟩, hs⟩
  · right; rw [ha]; exact ⟨rfl, hs⟩

theorem combineDict_frame {R : Registry} {o : SetOrder} {inP : PropDict} (l : PropDict) {out res : PropDict}
    (h : combineDict R o inP l out = .ok res) {n : String} (hn : n ∉ Dict.keys l) : res.get? n = out.get? n := by
  induction l generalizing out with
  | nil => injection h with h; rw [h]
  | cons kv l ih =>
    obtain ⟨k, p⟩ := kv
    rw [Dict.keys_cons, List.mem_cons, not_or] at hn
    unfold combineDict at h
    obtain ⟨mid, hm, h⟩ := Exc.bind_ok_iff.1 h
    rw [ih h hn.2, (combineEntry_ok hm).1 n hn.1]

/-- A quantity that occurs once keeps its units and its dims. -/
theorem combineDict_once {R : Registry} {o : SetOrder} {inP : PropDict} (l : PropDict) {out res : PropDict}
    (hl : l.keys.Nodup) (h : combineDict R o inP l out = .ok res) {n : String} {p : QProps} (hp : l.get? n = some p)
    (ho : out.get? n = none) :
    ∃ r, res.get? n = some r ∧ r.units = p.units ∧ r.dims = combineEffDims inP n p := by
  induction l generalizing out with
  | nil => cases hp
  | cons kv l ih =>
    obtain ⟨k, q⟩ := kv
    rw [Dict.keys_cons, List.nodup_cons] at hl
    unfold combineDict at h
    obtain ⟨mid, hm, h⟩ := Exc.bind_ok_iff.1 h
    obtain ⟨e1, _, e3⟩ := combineEntry_ok hm
    by_cases hk : k = n
    · subst hk
      rw [Dict.get?_cons, if_pos rfl] at hp
      injection hp with hp; subst hp
      rw [combineDict_frame l h hl.1]
      rcases e3 with ⟨_, r', hr, hu, _, hd, _⟩ | ⟨r, _, _, _, _, _, _, hr, _⟩
      · exact ⟨r', hr, hu, hd⟩
      · rw [ho] at hr; cases hr
    · rw [Dict.get?_cons, if_neg hk] at hp
      exact ih hl.2 h hp (by rw [e1 n (Ne.symm hk)]; exact ho)

theorem inputContribution_ok {g : Tracers} {c : Class} {l : List PropDict} (h : inputContribution g c = .ok l) :
    l = inputDicts g c := by
  unfold inputContribution at h
  unfold inputDicts
  cases hu : c.usesTracers with
  | false => rw [hu] at h; injection h with h; simpa using h.symm
  | true =>
    rw [hu] at h
    cases ht : c.tracerDims with
    | none => rw [ht] at h; cases h
    | some td =>
      rw [ht] at h
      simp only [if_true] at h
      split at h
      · cases h
      · injection h with h; simpa using h.symm

theorem combineInputs_ok {R : Registry} {o : SetOrder} {g : Tracers} {cs : List Class} {inP : PropDict}
    (h : combineInputs R o g cs = .ok inP) : combineProperties R o (cs.flatMap (inputDicts g)) = .ok inP := by
  unfold combineInputs at h
  obtain ⟨ls, hls, h'⟩ := Exc.bind_ok_iff.1 h
  have : ls = cs.map (inputDicts g) := by
    clear h h'
    induction cs generalizing ls with
    | nil => injection hls with hls; exact hls.symm
    | cons c cs ih =>
      rw [List.mapM_cons] at hls
      obtain ⟨b, hb, hls⟩ := Exc.bind_ok_iff.1 hls
      obtain ⟨bs, hbs, hls⟩ := Exc.bind_ok_iff.1 hls
      injection hls with hls; subst hls
      rw [List.map_cons, inputContribution_ok hb, ih _ hbs]
  rw [this] at h'
  rwa [List.flatMap_def]

/-- C67.  If no stepped quantity is an input of a component, a TendencyStepper that can
be made without tendencies in diagnostics can be made with them.  The restriction is
needed, see `ts_tid_rejected`. -/
theorem ts_tid_accepted_partial (R : Registry) (o : SetOrder) (g : Tracers) (cs : List (Class × Obj)) (inst : String)
    (c : Class) (h : tsConstruct R o g cs false inst = .ok c)
    (hN : ∀ n ∈ c.outProps.keys, tendencyName n inst ∉ c.inProps.keys)
    (hin : ∀ n ∈ c.outProps.keys, n ∉ (inputEntries g (cs.map (·.1))).keys) :
    ∃ c', tsConstruct R o g cs true inst = .ok c' := by
  rcases ts_tid_decided R o g cs inst c h hN with ⟨h, _⟩ | ⟨_, hs⟩
  · exact h
  · exfalso
    apply hs
    obtain ⟨_, hcls, _⟩ := tsConstruct_parts h
    obtain ⟨inP0, t, m⟩ := tsClass_ok hcls
    intro kv hkv ip hip
    have hkn := Dict.mem_keys_of_mem hkv
    have hn0 : inP0.get? kv.1 = none := by
      rw [Dict.get?_eq_none_iff]
      intro hk
      obtain ⟨d, hd, hnd⟩ := ((combined_properties_cover _ _ _ _ _ (combineInputs_ok m.inputs)).1 kv.1).1 hk
      apply hin kv.1 hkn
      obtain ⟨x, hx, hxe⟩ := List.mem_map.1 hnd
      exact List.mem_map.2 ⟨x, List.mem_flatten.2 ⟨d, hd, hx⟩, hxe⟩
    have hinp := m.inp
    unfold combineProperties at hinp
    rw [combineLoop_eq] at hinp
    simp only [List.flatten_cons, List.flatten_nil, List.append_nil] at hinp
    rw [combineDict_append] at hinp
    obtain ⟨mid, hm, hinp⟩ := Exc.bind_ok_iff.1 hinp
    have hmid : mid.get? kv.1 = none := by
      rw [combineDict_frame inP0 hm ((Dict.get?_eq_none_iff _ _).1 hn0)]; rfl
    obtain ⟨r, hr, hu, hd⟩ := combineDict_once c.outProps m.outNodup hinp
      (Dict.get?_of_mem m.outNodup (k := kv.1) (v := kv.2) hkv) hmid
    rw [hip] at hr; injection hr with hr; subst hr
    refine ⟨?_, hu.symm⟩
    cases hkd : kv.2.dims with
    | none => exact Or.inl rfl
    | some d => right; rw [hd]; unfold combineEffDims; rw [hkd]

/-- C67.  If a stepped quantity is an input of a component, and the clean form of its
tendency units times seconds is not the very string given as units of the input, a
TendencyStepper with tendencies in diagnostics cannot be made, though it can be made
without them. -/
theorem ts_tid_rejected (R : Registry) (o : SetOrder) (g : Tracers) (cs : List (Class × Obj)) (inst : String)
    (c : Class) (h : tsConstruct R o g cs false inst = .ok c)
    (hN : ∀ n ∈ c.outProps.keys, tendencyName n inst ∉ c.inProps.keys)
    (n : String) (p q : QProps) (ps qs : List QProps) (v : String)
    (hp : entriesOf ((cs.map (·.1)).flatMap (inputDicts g)) n = p :: ps)
    (hq : entriesOf ((cs.map (·.1)).map (·.outProps)) n = q :: qs) (hv : q.units = some v)
    (hne : p.units ≠ some (R.clean (v ++ " s"))) :
    tsConstruct R o g cs true inst = .error .invalidPropertyDict := by
  rcases ts_tid_decided R o g cs inst c h hN with ⟨_, hs⟩ | ⟨h, _⟩
  · exfalso
    obtain ⟨_, hcls, _⟩ := tsConstruct_parts h
    obtain ⟨inP0, t, m⟩ := tsClass_ok hcls
    have hci := combineInputs_ok m.inputs
    obtain ⟨a1, a2, _⟩ := combined_properties_cover _ _ _ _ _ hci
    obtain ⟨b1, b2, _⟩ := combined_properties_cover _ _ _ _ _ m.tend
    obtain ⟨d1, d2, _⟩ := combined_properties_cover _ _ _ _ _ m.inp
    have hmemk : ∀ {l : List PropDict} {x xs}, entriesOf l n = x :: xs → ∃ d ∈ l, n ∈ Dict.keys d := by
      intro l x xs he
      have := mem_entriesOf.1 (show x ∈ entriesOf l n by rw [he]; simp)
      obtain ⟨d, hd, hx⟩ := List.mem_flatten.1 this
      exact ⟨d, hd, Dict.mem_keys_of_mem hx⟩
    -- the entry of the combined inputs
    obtain ⟨ip, hip⟩ := Dict.get?_of_mem_keys ((a1 n).2 (hmemk hp))
    obtain ⟨p', ps', hp', hu', _⟩ := a2 n ip hip
    rw [hp] at hp'; injection hp' with hp' _; subst hp'
    -- the entry of the tendencies and of the outputs
    obtain ⟨tp, htp⟩ := Dict.get?_of_mem_keys ((b1 n).2 (hmemk hq))
    obtain ⟨q', qs', hq', huq, _⟩ := b2 n tp htp
    rw [hq] at hq'; injection hq' with hq' _; subst hq'
    have hok : n ∈ c.outProps.keys := by rw [m.outKeys]; exact Dict.mem_keys_of_get? htp
    obtain ⟨op, hop⟩ := Dict.get?_of_mem_keys hok
    have hopm := Dict.mem_of_get? hop
    obtain ⟨tp', htp', hts⟩ := m.outEntry hopm
    have := Dict.get?_of_mem (combineProperties_nodup m.tend) htp'
    rw [htp] at this; injection this with this; subst this
    obtain ⟨_, u, w, hu, hw, how⟩ := timesSecond_dims hts
    rw [huq, hv] at hu; injection hu with hu; subst hu
    unfold Registry.cleanUnits at hw
    obtain ⟨_, _, hw⟩ := Exc.bind_ok_iff.1 hw
    injection hw with hw; subst hw
    -- the entry of the inputs of the stepper
    obtain ⟨fp, hfp⟩ := Dict.get?_of_mem_keys ((d1 n).2 ⟨inP0, by simp, Dict.mem_keys_of_get? hip⟩)
    obtain ⟨f0, fs, hf, huf, _⟩ := d2 n fp hfp
    have hf0 : f0.units = ip.units := by
      have : entriesOf [inP0, c.outProps] n = entriesOf [inP0] n ++ entriesOf [c.outProps] n := by
        unfold entriesOf; simp
      rw [this] at hf
      have hi : ip ∈ entriesOf [inP0] n := mem_entriesOf.2 (by simpa using Dict.mem_of_get? hip)
      cases he : entriesOf [inP0] n with
      | nil => rw [he] at hi; cases hi
      | cons x xs =>
        rw [he] at hf
        injection hf with hf _
        subst hf
        have hx := mem_entriesOf.1 (show x ∈ entriesOf [inP0] n by rw [he]; simp)
        have := Dict.get?_of_mem (combineProperties_nodup hci) (k := n) (v := x) (by simpa using hx)
        rw [hip] at this; injection this with this; rw [this]
    have := (hs (n, op) hopm fp hfp).2
    rw [huf, hf0, hu'] at this
    exact hne (this.symm.trans how)
  · exact h

/-- A registry whose clean units are pint's names of base units. -/
def Demo.pintTable : Dict PintUnit :=
  [("K s^-1 s", Demo.mkU [1, 0, 0, 0] 1 0 (by decide)), ("kelvin", Demo.mkU [1, 0, 0, 0] 1 0 (by decide)),
   ("m s^-1 s", Demo.mkU [0, 1, 0, 0] 1 0 (by decide)), ("meter", Demo.mkU [0, 1, 0, 0] 1 0 (by decide))]

def Demo.pintReg : Registry where
  parse s := (Demo.table.update Demo.pintTable).get? s
  clean s := if s = "K s^-1 s" then "kelvin" else if s = "m s^-1 s" then "meter" else s

/-- A component that warms `T` at a rate depending on `q`; `q` may be `T` itself. -/
def Demo.warmCls (q : String) : Class :=
  { kind := .tendency
    inProps := [(q, { dims := some ["z"], units := some "K" })]
    outProps := [("T", { dims := some ["z"], units := some "K s^-1" })]
    diagProps := [("d", { dims := some ["z"], units := some "m" })] }

theorem Demo.warm_plain (q : String) (hq : q = "T" ∨ q = "S") :
    ∃ c, tsConstruct Demo.pintReg Demo.order {} [(Demo.warmCls q, Demo.tendObj)] false "Stepper" = .ok c ∧
      c.outProps = [("T", { dims := some ["z"], units := some "kelvin" })] ∧
      c.inProps.keys = (if q = "T" then ["T"] else ["S", "T"]) := by
  have key : ∀ q ∈ ["T", "S"], Exc.test (tsConstruct Demo.pintReg Demo.order {} [(Demo.warmCls q, Demo.tendObj)] false "Stepper")
      (fun c => decide (c.outProps = [("T", { dims := some ["z"], units := some "kelvin" })]) &&
        decide (c.inProps.keys = (if q = "T" then ["T"] else ["S", "T"]))) = true := by
    decide +kernel
  obtain ⟨c, hc, ht⟩ := Exc.test_ok (key q (by simpa using hq))
  simp only [Bool.and_eq_true, decide_eq_true_eq] at ht
  exact ⟨c, hc, ht⟩

/-- A stepper whose only component reads the quantity it steps, in kelvin, is rejected. -/
example : tsConstruct Demo.pintReg Demo.order {} [(Demo.warmCls "T", Demo.tendObj)] true "Stepper" =
    .error .invalidPropertyDict := by
  obtain ⟨c, hc, ho, hi⟩ := Demo.warm_plain "T" (Or.inl rfl)
  refine ts_tid_rejected _ _ _ _ _ c hc ?_ "T" { dims := some ["z"], units := some "K" }
    { dims := some ["z"], units := some "K s^-1" } [] [] "K s^-1" rfl rfl rfl (by decide)
  rw [ho, hi]; decide

/-- One whose component reads another quantity is accepted. -/
example : ∃ c, tsConstruct Demo.pintReg Demo.order {} [(Demo.warmCls "S", Demo.tendObj)] true "Stepper" = .ok c := by
  obtain ⟨c, hc, ho, hi⟩ := Demo.warm_plain "S" (Or.inr rfl)
  refine ts_tid_accepted_partial _ _ _ _ _ c hc ?_ ?_
  · rw [ho, hi]; decide
  · rw [ho]; decide

end Verif
