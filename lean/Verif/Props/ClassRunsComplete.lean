import Verif.Props.OutputFaults
import Verif.Props.RelaxedRunsComplete
/-! # C99: runs with components that return what they declare complete -/

namespace Verif

variable {σ : Type} {R : Registry} {L : String → Nat}

/-- The dimensions that a quantity has in the state. -/
def State.dimsOf (state : State) (k : String) : List String :=
  match Dict.get? state k with
  | some (.da a) => a.dims
  | _ => []

/-- A state from which a component of class `c` can be stepped: its inputs are there, with the
dimensions they are asked for and units that convert; the dimensions declared for each tendency
are dimensions of the quantity, known from the inputs; and the units of each tendency convert to
those of the quantity per second. -/
structure Steppable (R : Registry) (c : Class) (state0 : State) : Prop where
  inputs : ValidInputs R state0 c.inProps
  declared : ∀ kv ∈ c.inProps, ∀ d, kv.2.dims = some d → d.Nodup
  apart : ∀ kv ∈ c.inProps, ∀ ds, kv.2.dims = some ds → "*" ∈ ds →
    ∀ d ∈ wildSpec (requested state0 c.inProps), d ∉ ds
  time : "time" ∈ Dict.keys state0
  notTime : "time" ∉ Dict.keys c.inProps
  noStar : ∀ k b, Dict.get? state0 k = some (.da b) → "*" ∉ b.dims
  dims : ∀ kv ∈ c.outProps, ∀ dims, effDims c.inProps kv.1 kv.2 = some dims →
    DimsSuit c.inProps (State.dimsOf state0) (fun _ => []) kv.1 dims
  rate : ∀ kv ∈ c.outProps, ∃ b own u pa pb, Dict.get? state0 kv.1 = some (.da b) ∧
    b.attrs.get? "units" = some u ∧ kv.2.units = some own ∧
    R.parse own = some pa ∧ R.parse (u ++ " s^-1") = some pb ∧ pa.dim = pb.dim

theorem Ready.among {Q : List String} {state0 state : State} (hS : Startable L Q state0)
    (h : Ready L Q 1 state0 state) : DimsAmong L (State.dimsOf state0) (fun _ => []) state := by
  have key : ∀ k a, Dict.get? state k = some (.da a) → a.Sized L ∧ ∀ d, d ∈ a.dims ↔ d ∈ State.dimsOf state0 k := by
    intro k a hk
    by_cases ht : k = "time"
    · subst ht
      rw [h.time] at hk
      exact absurd hk (hS.time a)
    · obtain ⟨b, a', hb, ha, hl⟩ := h.entry hS ht (Dict.mem_of_get? hk)
      cases ha
      refine ⟨hl.sized, fun d => ?_⟩
      unfold State.dimsOf
      rw [hb]
      rw [hl.dims]
  exact ⟨fun k a hk => (key k a hk).1, fun k a hk d hd => .inl (((key k a hk).2 d).1 hd),
    fun k a hk d hd => ((key k a hk).2 d).2 hd⟩

/-- The inputs of the component are accepted in every state like the first. -/
theorem Steppable.prepared (hR : R.Faithful) {c : Class} {i : Inst} {g : Tracers} {Q : List String} {state0 state : State}
    (hp : i.packer = none) (hS : Startable L Q state0) (hx : Steppable R c state0) (h : Ready L Q 1 state0 state) :
    ∃ raw, prepare R g c i state = .ok raw := by
  have hg := h.onGrid hS hx.noStar
  obtain ⟨hwf, hsf⟩ := onGrid_wf hg
  have hkey : ∀ kv ∈ c.inProps, ∃ dims b a, kv.2.dims = some dims ∧ Dict.get? state0 kv.1 = some (.da b) ∧
      Dict.get? state kv.1 = some (.da a) ∧ Likewise L b a := by
    intro kv hkv
    obtain ⟨dims, us, b, own, ua, ub, h1, _, h3, _⟩ := hx.inputs.entry kv hkv
    have hne : kv.1 ≠ "time" := fun e => hx.notTime (e ▸ Dict.mem_keys_of_mem hkv)
    obtain ⟨a, ha, hl, -⟩ := h.present kv.1 b hne h3
    exact ⟨dims, b, a, h1, h3, ha, hl⟩
  have hreq : ∀ q ∈ requested state c.inProps, ∃ q0 ∈ requested state0 c.inProps,
      q0.2 = q.2 ∧ (∀ d, d ∈ q.1.dims ↔ d ∈ q0.1.dims) ∧ q.1.Sized L := by
    intro q hq
    obtain ⟨kv, hkv, h1, h2⟩ := mem_requested.1 hq
    obtain ⟨dims, b, a, k1, k2, k3, k4⟩ := hkey kv hkv
    rw [k3] at h1; cases h1
    exact ⟨(b, q.2), mem_requested.2 ⟨kv, hkv, k2, h2⟩, rfl, fun d => by rw [k4.dims], k4.sized⟩
  have hv : ValidInputs R state c.inProps := by
    refine ⟨fun kv hkv => ?_, fun p hp p' hp' d hd hd' => ?_, fun p hp hns d hd => ?_⟩
    · obtain ⟨dims, us, b, own, ua, ub, h1, h2, h3, h4, h5, h6, h7⟩ := hx.inputs.entry kv hkv
      obtain ⟨_, b', a, _, k2, k3, k4⟩ := hkey kv hkv
      rw [h3] at k2; cases k2
      exact ⟨dims, us, a, own, ua, ub, h1, h2, k3, by rw [k4.attrs]; exact h4, h5, h6, h7⟩
    · obtain ⟨_, _, _, _, s1⟩ := hreq p hp
      obtain ⟨_, _, _, _, s2⟩ := hreq p' hp'
      rw [len_of_sized s1 hd, len_of_sized s2 hd']
    · obtain ⟨q0, m, e, hdim, _⟩ := hreq p hp
      rw [← e]
      exact hx.inputs.dims q0 m (by rw [e]; exact hns) d ((hdim d).1 hd)
  obtain ⟨raw, hraw⟩ := valid_inputs_accepted R hR state c.inProps hwf hsf hx.declared (by
    intro kv hkv ds hds hs d hd
    apply hx.apart kv hkv ds hds hs
    obtain ⟨q, hq, hd1, hd2⟩ := mem_wildSpec.1 hd
    obtain ⟨q0, m, e, hdim, _⟩ := hreq q hq
    exact mem_wildSpec.2 ⟨q0, m, (hdim d).1 hd1, by rw [e]; exact hd2⟩) hv
  obtain ⟨t, ht⟩ := Dict.get?_of_mem_keys ((h.mem hS "time").2 hx.time)
  refine ⟨⟨raw, t⟩, ?_⟩
  unfold prepare
  have hci : checkInputs c.inProps state = .ok () := by
    unfold checkInputs
    rw [if_pos]
    intro k hk
    obtain ⟨kv, hkv, rfl⟩ := List.mem_map.1 hk
    obtain ⟨_, _, _, _, _, k3, _⟩ := hkey kv hkv
    exact Dict.mem_keys_of_get? k3
  rw [hci, Exc.ok_bind, hraw, Exc.ok_bind, hp]
  simp only [Exc.ok_bind]
  rw [Dict.get_eq_ok.2 ht]
  rfl

/-- **C99.**  A component whose `array_call`, on what it is given for states like the first, does
not raise and returns what the component declares, gives tendencies that fit to every state like
the first one. -/
theorem class_gives (hR : R.Faithful) (g : Tracers) (c : Class) (i : Inst) (hp : i.packer = none)
    (ho : c.outProps.keys.Nodup) (hd : c.diagProps.keys.Nodup)
    (hao : Arranged c.inProps c.outProps) (had : Arranged c.inProps c.diagProps)
    {Q : List String} {state0 : State} (hS : Startable L Q state0) (hx : Steppable R c state0)
    (f : σ → RawState → σ × Except Err (Dict NDArray × Dict NDArray))
    (hf : ∀ s state raw, Ready L Q 1 state0 state → prepare R g c i state = .ok raw →
      ∃ t d, (f s raw).2 = .ok (t, d) ∧ Fulfils L state c.inProps c.outProps [] t ∧
        Fulfils L state c.inProps c.diagProps i.ignored d)
    (N : List String) (hN : ∀ n ∈ N, n ∉ Dict.keys c.diagProps ∧ ∀ k ∈ Dict.keys c.outProps, n ≠ tendencyName k i.name) (dt : Int) :
    GivesRates R L Q c.outProps.keys N state0 dt fun s state _ => callTendency R g c i f s state := by
  intro s state h
  have ham := h.among hS
  have hwf := ham.wf
  obtain ⟨raw, hprep⟩ := hx.prepared (g := g) hR hp hS h
  obtain ⟨t, d, hfr, h1, h2⟩ := hf s state raw h hprep
  obtain ⟨r, hr⟩ := (declared_outputs_accepted R g c i state hwf hp ho hd hao had raw hprep s L L t d h1 h2).1 f hfr
  refine ⟨r, hr, ?_⟩
  unfold callTendency at hr
  rw [hprep] at hr
  dsimp only at hr
  rw [hfr, Exc.ok_bind] at hr
  unfold finishTendency takeTracers at hr
  rw [hp] at hr
  simp only [Exc.ok_bind] at hr
  obtain ⟨_, -, hr⟩ := Exc.bind_ok_iff.1 hr
  obtain ⟨_, -, hr⟩ := Exc.bind_ok_iff.1 hr
  obtain ⟨tend, ht, hr⟩ := Exc.bind_ok_iff.1 hr
  obtain ⟨diag, hdg, hr⟩ := Exc.bind_ok_iff.1 hr
  have hnd := restore_nodup ht
  have hget : ∀ k, Dict.get? (Dict.update [] tend) k = Dict.get? tend k := by
    intro k
    rw [Dict.get?_update _ _ hnd]
    simp
  have hkeys : ∀ k, k ∈ Dict.keys (Dict.update [] tend) ↔ k ∈ Dict.keys c.outProps := by
    intro k
    have := restore_keys ho ht k
    rw [Dict.mem_keys_update]
    simpa using this
  cases hr
  refine ⟨Dict.nodup_keys_update (by simp) _, hkeys, fun k v hv => ?_, fun n hn hc => ?_⟩
  · have hkm := (hkeys k).1 (Dict.mem_keys_of_get? hv)
    dsimp only at hv
    rw [hget] at hv
    obtain ⟨hw1, hw2⟩ := restored_within ham ho hx.dims ht (Dict.mem_of_get? hv)
    obtain ⟨p, hpk⟩ := Dict.get?_of_mem_keys hkm
    obtain ⟨b, own, u, pa, pb, b1, b2, b3, b4, b5, b6⟩ := hx.rate (k, p) (Dict.mem_of_get? hpk)
    obtain ⟨_, hr2⟩ := restored_outputs_carry_state_dims t c.outProps state c.inProps [] false tend hwf ho
      (fun kv hkv d he => List.nodup_iff_count_le_one.1 (hx.dims kv hkv d he).nodup _) ht
    obtain ⟨dims, units, da, _, q2, q4, _, q6, _⟩ := hr2 (k, p) (Dict.mem_of_get? hpk) (by simp) (by simp)
    rw [hv] at q4; cases q4
    rw [b3] at q2; cases q2
    refine ⟨⟨b, b1, hw1, fun d hd => ?_, .inr ⟨own, u, pa, pb, by rw [q6]; rfl, b2, b4, b5, b6⟩⟩,
      by rw [q6]; exact Option.some_ne_none _⟩
    have := (hw2 d hd).resolve_right (List.not_mem_nil)
    unfold State.dimsOf at this
    rw [b1] at this
    exact this
  · obtain ⟨n1, n2⟩ := hN n hn
    have hdk := restore_keys hd hdg n
    dsimp only at hc
    split at hc
    · rw [insertTendencies_keys] at hc
      rcases hc with hc | ⟨k, hk, e⟩
      · exact n1 (hdk.1 hc).1
      · exact n2 k ((hkeys k).1 hk) e
    · exact n1 (hdk.1 hc).1

namespace Demo

/-- Cools by a tenth of its temperature in degrees Celsius per second. -/
def tenthCls : Class :=
  { kind := .tendency, inProps := [("T", { dims := some ["*"], units := some "degC" })]
    outProps := [("T", { units := some "K s^-1" })], diagProps := [] }

def tenthInst : Inst := { name := "Cooling", tid := false, ignored := [], packer := none }

def tenthF (s : Unit) (raw : RawState) : Unit × Except Err (Dict NDArray × Dict NDArray) :=
  (s, raw.arrays.get "T" >>= fun a => .ok ([("T", ⟨a.shape, fun ix => -(a.get ix) / 10⟩)], []))

theorem tenth_arranged : Arranged tenthCls.inProps tenthCls.outProps := by
  intro kv hkv
  rw [List.mem_singleton.1 hkv]
  exact ⟨⟨_, rfl⟩, ["*"], rfl, by decide⟩

theorem tenth_steppable : Steppable reg tenthCls relaxRunState where
  inputs := by
    refine ⟨fun kv hkv => ?_, ?_, ?_⟩
    · rw [List.mem_singleton.1 hkv]
      exact ⟨_, _, temp, "K", _, _, rfl, rfl, rfl, rfl, rfl, rfl, rfl⟩
    · intro q hq q' hq' d _ _
      have hreq : requested relaxRunState tenthCls.inProps = [(temp, ["*"])] := rfl
      rw [hreq] at hq hq'
      rw [List.mem_singleton.1 hq, List.mem_singleton.1 hq']
    · intro q hq hns
      have hreq : requested relaxRunState tenthCls.inProps = [(temp, ["*"])] := rfl
      rw [hreq] at hq
      rw [List.mem_singleton.1 hq] at hns
      exact absurd (List.mem_singleton.2 rfl) hns
  declared := by
    intro kv hkv d hd
    rw [List.mem_singleton.1 hkv] at hd
    cases hd
    decide
  apart := by
    intro kv hkv ds hds _ d hd hm
    rw [List.mem_singleton.1 hkv] at hds
    cases hds
    rw [List.mem_singleton.1 hm] at hd
    revert hd
    decide +kernel
  time := by decide
  notTime := by decide
  noStar := fun k b h => (relaxRunState_grid k b (Dict.mem_of_get? h)).2
  dims := by
    intro kv hkv dims hd
    rw [List.mem_singleton.1 hkv] at hd ⊢
    cases hd
    have hno : ∀ d ∈ ["*"], d ≠ "*" → False := by
      intro d hd hne
      exact hne (List.mem_singleton.1 hd)
    refine ⟨by decide, fun d hd hne => (hno d hd hne).elim, fun d hd hne => (hno d hd hne).elim,
      fun d hd hne => (hno d hd hne).elim, fun _ q hq ds _ d hd _ => ?_⟩
    rw [List.mem_singleton.1 hq] at hd
    exact hd
  rate := by
    intro kv hkv
    rw [List.mem_singleton.1 hkv]
    exact ⟨temp, "K s^-1", "K", _, _, rfl, rfl, rfl, rfl, rfl, rfl⟩

theorem tenth_startable : Startable relaxL ["T"] relaxRunState :=
  ⟨relaxRun_startable.keys, relaxRun_startable.arrays, by decide +kernel, relaxRun_startable.time⟩

/-- What it declares it returns: the shape of its input. -/
theorem tenth_fulfils (s : Unit) (state : State) (raw : RawState) (h : Ready relaxL ["T"] 1 relaxRunState state)
    (hprep : prepare reg {} tenthCls tenthInst state = .ok raw) :
    ∃ t d, (tenthF s raw).2 = .ok (t, d) ∧ Fulfils relaxL state tenthCls.inProps tenthCls.outProps [] t ∧
      Fulfils relaxL state tenthCls.inProps tenthCls.diagProps tenthInst.ignored d := by
  have hg := h.onGrid tenth_startable tenth_steppable.noStar
  obtain ⟨hwf, hsf⟩ := onGrid_wf hg
  have hL : Agrees state tenthCls.inProps relaxL := by
    intro q hq d hd
    obtain ⟨kv, hkv, h1, h2⟩ := mem_requested.1 hq
    exact (len_of_sized (hg _ _ (Dict.mem_of_get? h1)).1 hd).symm
  obtain ⟨a, ha, hsh⟩ := input_shape reg_faithful (i := tenthInst) (g := {}) (c := tenthCls) rfl hwf hsf
    (by
      intro kv hkv d hd
      rw [List.mem_singleton.1 hkv] at hd
      cases hd
      decide) (by decide) hL hprep (kv := ("T", { dims := some ["*"], units := some "degC" }))
    (List.mem_singleton.2 rfl) rfl (by
      intro d hd hne
      exact absurd (List.mem_singleton.1 hd) hne)
  refine ⟨[("T", ⟨a.shape, fun ix => -(a.get ix) / 10⟩)], [], ?_, ⟨hL, ?_, ?_⟩, ⟨hL, ?_, ?_⟩⟩
  · have : raw.arrays.get "T" = .ok a := Dict.get_eq_ok.2 ha
    unfold tenthF
    rw [this]
    rfl
  · intro kv hkv _
    rw [List.mem_singleton.1 hkv]
    exact ⟨["*"], _, rfl, rfl, hsh, fun _ => ⟨_, List.mem_singleton.2 rfl, _, rfl, by decide⟩⟩
  · intro k hk
    rw [List.mem_singleton.1 hk]
    exact ⟨_, List.mem_singleton.2 rfl, .inl rfl⟩
  · intro kv hkv
    cases hkv
  · intro k hk
    cases hk

/-- Every run of AdamsBashforth with that component completes. -/
example (dt : Int) (n : Nat) : ∃ r, runSteps (tsCall reg [] [] "AB" false (abCall reg
      (fun s state _ => callTendency reg {} tenthCls tenthInst tenthF s state))) dt n { order := 3 } () relaxRunState = some r ∧
    Ready relaxL ["T"] 1 relaxRunState r.2.2 := by
  have hg := class_gives (σ := Unit) reg_faithful {} tenthCls tenthInst rfl (by decide) (by decide) tenth_arranged
    (by intro kv hkv; cases hkv) tenth_startable tenth_steppable tenthF tenth_fulfils [] (by simp) dt
  refine ab_completes (N := []) tenth_startable (fun s st hst => ?_) (by simp) 3 { order := 3 } rfl n ()
  obtain ⟨r, h1, h2, h3, h4, h5⟩ := hg s st hst
  exact ⟨r, h1, h2, h3, fun k v hv => (h4 k v hv).1, h5⟩

end Demo

end Verif
