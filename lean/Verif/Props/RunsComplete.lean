import Verif.Spec.RunsComplete
import Verif.Props.SteadyRuns
import Verif.Props.DimsKept
import Verif.Props.SSPRK
import Verif.Props.CoordsMoved
import Verif.Props.Forcing
/-!
# C99: runs do not raise if the components do not
-/

namespace Verif

variable {σ τ : Type} {R : Registry} {L : String → Nat}

/-! ## Arrays -/

/-- An array without dimensions outside `b`. -/
def Under (L : String → Nat) (b v : DataArray) : Prop := v.Sized L ∧ ∀ d ∈ v.dims, d ∈ b.dims

theorem Likewise.under {b a : DataArray} (h : Likewise L b a) : Under L b a := ⟨h.sized, fun _ hd => h.dims ▸ hd⟩

theorem Under.smul {b v : DataArray} (h : Under L b v) (c : Rat) : Under L b (v.smul c) := ⟨⟨h.1.1, h.1.2⟩, h.2⟩

theorem binop_under {b v w : DataArray} (hv : Under L b v) (hw : Under L b w) (f : Rat → Rat → Rat) :
    ∃ r, DataArray.binop f v w = .ok r ∧ Under L b r := by
  obtain ⟨r, h1, h2, h3⟩ := sized_binop hv.1 hw.1 f
  refine ⟨r, h1, h2, fun d hd => ?_⟩
  rw [h3] at hd
  rcases List.mem_append.1 hd with hd | hd
  · exact hv.2 d hd
  · exact hw.2 d (List.mem_filter.1 hd).1

theorem add_under {b v w : DataArray} (hv : Under L b v) (hw : Under L b w) : ∃ r, v.add w = .ok r ∧ Under L b r := by
  obtain ⟨r, h1, h2⟩ := binop_under hv hw (· + ·)
  unfold DataArray.add
  rw [h1, Exc.ok_bind]
  exact ⟨_, rfl, h2⟩

theorem sub_under {b v w : DataArray} (hv : Under L b v) (hw : Under L b w) : ∃ r, v.sub w = .ok r ∧ Under L b r := by
  obtain ⟨r, h1, h2⟩ := binop_under hv hw (· - ·)
  unfold DataArray.sub
  rw [h1, Exc.ok_bind]
  exact ⟨_, rfl, h2⟩

theorem add_likewise {b a v : DataArray} (ha : Likewise L b a) (hv : Under L b v) :
    ∃ r, a.add v = .ok r ∧ Likewise L b r := by
  obtain ⟨r, h1, h2, h3⟩ := sized_binop ha.sized hv.1 (· + ·)
  unfold DataArray.add
  rw [h1, Exc.ok_bind]
  refine ⟨_, rfl, h2, ?_, ha.attrs⟩
  show r.dims = _
  rw [h3, List.filter_eq_nil_iff.2 fun d hd => by simpa using ha.dims.symm ▸ hv.2 d hd, List.append_nil, ha.dims]

theorem add_values {a v r : DataArray} (ha : a.Sized L) (hv : v.Sized L) (h : a.add v = .ok r) :
    r.dims = a.dims ++ v.dims.filter (fun d => d ∉ a.dims) ∧ ∀ ix, r.at' ix = a.at' ix + v.at' ix := by
  have wf : ∀ x : DataArray, x.Sized L → x.WF := fun x hx =>
    ⟨by rw [hx.2, List.length_map], hx.1⟩
  obtain ⟨x, h1, -, h2, -, -, h3⟩ := (binop_spec (· + ·) a v (wf a ha) (wf v hv)).1 fun d h1 h2 => by
    rw [len_of_sized ha h1, len_of_sized hv h2]
  unfold DataArray.add at h
  rw [h1, Exc.ok_bind] at h
  cases h
  exact ⟨h2, h3⟩

theorem iadd_likewise {b a v : DataArray} (ha : Likewise L b a) (hv : Under L b v) :
    ∃ r, a.iadd v = .ok r ∧ Likewise L b r := by
  unfold DataArray.iadd
  rw [if_pos fun d hd => ha.dims.symm ▸ hv.2 d hd]
  exact add_likewise ha hv

/-! ## States -/

section
variable {Q : List String} {c : Rat} {state0 state : State}

theorem Ready.start (h : Startable L Q state0) : Ready L Q 1 state0 state0 where
  keys := h.keys
  time := rfl
  absent := fun k _ h => h
  present := fun k b hk hb => by
    obtain ⟨a, ha, hs⟩ := h.arrays k _ hk hb
    cases ha
    exact ⟨b, hb, ⟨hs, rfl, rfl⟩, fun _ ix => (one_mul _).symm⟩

theorem Ready.congr (h : Ready L Q c state0 state) {new : State} (hn : (Dict.keys new).Nodup)
    (hg : ∀ k, Dict.get? new k = Dict.get? state k) : Ready L Q c state0 new where
  keys := hn
  time := (hg _).trans h.time
  absent := fun k hk hb => (hg k).trans (h.absent k hk hb)
  present := fun k b hk hb => by
    obtain ⟨a, ha, h'⟩ := h.present k b hk hb
    exact ⟨a, (hg k).trans ha, h'⟩

/-- Keys of a state like `state0`. -/
theorem Ready.mem (hS : Startable L Q state0) (h : Ready L Q c state0 state) (k : String) :
    k ∈ Dict.keys state ↔ k ∈ Dict.keys state0 := by
  by_cases hk : k = "time"
  · subst hk
    rw [← Dict.get?_isSome_iff, h.time, Dict.get?_isSome_iff]
  · constructor
    · intro hm
      by_contra hn
      have := h.absent k hk ((Dict.get?_eq_none_iff _ _).2 hn)
      exact (Dict.get?_eq_none_iff _ _).1 this hm
    · intro hm
      obtain ⟨v, hv⟩ := Dict.get?_of_mem_keys hm
      obtain ⟨a, rfl, -⟩ := hS.arrays k v hk hv
      obtain ⟨a', ha', -⟩ := h.present k a hk hv
      exact Dict.mem_keys_of_get? ha'

theorem Ready.get (hS : Startable L Q state0) (h : Ready L Q c state0 state) {k : String} (hk : k ∈ Q) :
    ∃ b a, Dict.get? state0 k = some (.da b) ∧ Dict.get? state k = some (.da a) ∧ Likewise L b a := by
  obtain ⟨h1, h2⟩ := hS.stepped k hk
  obtain ⟨v, hv⟩ := Dict.get?_of_mem_keys h2
  obtain ⟨b, rfl, -⟩ := hS.arrays k v h1 hv
  obtain ⟨a, ha, hl, -⟩ := h.present k b h1 hv
  exact ⟨b, a, hv, ha, hl⟩

theorem Ready.set (hS : Startable L Q state0) (h : Ready L Q c state0 state) {k : String} (hk : k ∈ Q) {b a : DataArray}
    (hb : Dict.get? state0 k = some (.da b)) (ha : Likewise L b a) : Ready L Q c state0 (Dict.set state k (.da a)) := by
  obtain ⟨h1, h2⟩ := hS.stepped k hk
  refine ⟨Dict.nodup_keys_set h.keys _ _, ?_, fun k' hk' hn => ?_, fun k' b' hk' hb' => ?_⟩
  · rw [Dict.get?_set_ne _ _ h1]; exact h.time
  · have : k' ≠ k := by rintro rfl; rw [hb] at hn; cases hn
    rw [Dict.get?_set_ne _ _ this.symm]; exact h.absent k' hk' hn
  · by_cases e : k' = k
    · subst e
      rw [hb] at hb'; cases hb'
      exact ⟨a, Dict.get?_set_self _ _ _, ha, fun hq => absurd hk hq⟩
    · rw [Dict.get?_set_ne _ _ (Ne.symm e)]
      exact h.present k' b' hk' hb'

/-- New values of quantities of `Q`. -/
structure NewOk (L : String → Nat) (Q : List String) (state0 new : State) : Prop where
  keys : (Dict.keys new).Nodup
  vals : ∀ k v, Dict.get? new k = some v → k ∈ Q ∧ ∃ b a, v = .da a ∧ Dict.get? state0 k = some (.da b) ∧ Likewise L b a

theorem Ready.copyUntouched (hS : Startable L Q state0) (h : Ready L Q c state0 state) {new : State}
    (hn : NewOk L Q state0 new) : Ready L Q c state0 (copyUntouched state new) := by
  obtain ⟨-, h2, h3⟩ := copyUntouched_spec state new
  have hno : ∀ k, k ∉ Q → k ∉ Dict.keys new := by
    intro k hk hm
    obtain ⟨v, hv⟩ := Dict.get?_of_mem_keys hm
    exact hk (hn.vals k v hv).1
  refine ⟨nodup_copyUntouched _ _ hn.keys, ?_, fun k hk hb => ?_, fun k b hk hb => ?_⟩
  · rw [h3 _ (hno _ fun hm => (hS.stepped _ hm).1 rfl)]; exact h.time
  · have : k ∉ Dict.keys new := by
      intro hm
      obtain ⟨v, hv⟩ := Dict.get?_of_mem_keys hm
      obtain ⟨-, b, a, -, hb', -⟩ := hn.vals k v hv
      rw [hb] at hb'; cases hb'
    rw [h3 _ this]; exact h.absent k hk hb
  · by_cases hm : k ∈ Dict.keys new
    · obtain ⟨v, hv⟩ := Dict.get?_of_mem_keys hm
      obtain ⟨hq, b', a, rfl, hb', ha⟩ := hn.vals k v hv
      rw [hb] at hb'; cases hb'
      exact ⟨a, (h2 k hm).trans hv, ha, fun hq' => absurd hq hq'⟩
    · rw [h3 k hm]; exact h.present k b hk hb

/-- Copying once more what is missing changes nothing. -/
theorem Ready.again (hS : Startable L Q state0) {c' : Rat} {st : State} (h : Ready L Q c state0 state)
    (hst : Ready L Q c' state0 st) : Ready L Q c state0 (Verif.copyUntouched st state) := by
  obtain ⟨-, h2, h3⟩ := copyUntouched_spec st state
  refine h.congr (nodup_copyUntouched _ _ h.keys) fun k => ?_
  by_cases hk : k ∈ Dict.keys state
  · exact h2 k hk
  · rw [h3 k hk]
    have : k ∉ Dict.keys st := fun hm => hk ((h.mem hS k).2 ((hst.mem hS k).1 hm))
    rw [(Dict.get?_eq_none_iff _ _).2 hk, (Dict.get?_eq_none_iff _ _).2 this]

/-! ## Tendencies -/

/-- Tendencies after conversion. -/
structure TendOk (L : String → Nat) (Q : List String) (state0 : State) (t : Dict DataArray) : Prop where
  keys : (Dict.keys t).Nodup
  mem : ∀ k, k ∈ Dict.keys t ↔ k ∈ Q
  vals : ∀ k b, k ∈ Q → Dict.get? state0 k = some (.da b) → ∃ v, Dict.get? t k = some v ∧ Under L b v

theorem convertTendencies_isOk {t : Dict DataArray}
    (h : ∀ k v, (k, v) ∈ t → ∃ w, convertTendency R state k v = .ok w) : ∃ t', convertTendencies R state t = .ok t' := by
  induction t with
  | nil => exact ⟨[], rfl⟩
  | cons kv t ih =>
    obtain ⟨k, v⟩ := kv
    obtain ⟨w, hw⟩ := h k v List.mem_cons_self
    obtain ⟨t', ht'⟩ := ih fun k v hm => h k v (List.mem_cons_of_mem _ hm)
    unfold convertTendencies
    rw [hw, Exc.ok_bind, ht', Exc.ok_bind]
    exact ⟨_, rfl⟩

theorem convert_ready (hS : Startable L Q state0) (h : Ready L Q c state0 state) {t : Dict DataArray}
    (hn : (Dict.keys t).Nodup) (hk : ∀ k, k ∈ Dict.keys t ↔ k ∈ Q)
    (hv : ∀ k v, Dict.get? t k = some v → ∃ b, Dict.get? state0 k = some (.da b) ∧ FitsRate R L b v) :
    ∃ t', convertTendencies R state t = .ok t' ∧ TendOk L Q state0 t' := by
  have hone : ∀ k v, Dict.get? t k = some v → ∃ w b, convertTendency R state k v = .ok w ∧
      Dict.get? state0 k = some (.da b) ∧ Under L b w := by
    intro k v hg
    obtain ⟨b, hb, hadd⟩ := hv k v hg
    have hq : k ∈ Q := (hk k).1 (Dict.mem_keys_of_get? hg)
    obtain ⟨b', a, hb', ha, hl⟩ := h.get hS hq
    rw [hb] at hb'; cases hb'
    unfold convertTendency
    rcases hadd.units with hu | ⟨own, u, pa, pb, hu, hbu, hpa, hpb, hd⟩
    · rw [hu]
      exact ⟨v, b, rfl, hb, hadd.sized, hadd.dims⟩
    · rw [hu]
      dsimp only
      unfold State.da
      rw [ha]
      obtain ⟨w, hw⟩ := toUnits_isOk hu hpa hpb hd
      have hau : a.attrs.get "units" = .ok u := by rw [hl.attrs]; exact Dict.get_eq_ok.2 hbu
      refine ⟨w, b, ?_, hb, ?_⟩
      · dsimp only
        rw [Exc.ok_bind, hau, Exc.ok_bind, hw]
      · obtain ⟨e1, e2⟩ := toUnits_shape hw
        exact ⟨⟨e1 ▸ hadd.sized.1, by rw [e2, e1]; exact hadd.sized.2⟩, fun d hd => hadd.dims d (e1 ▸ hd)⟩
  obtain ⟨t', ht'⟩ := convertTendencies_isOk (R := R) (state := state) (t := t) fun k v hm => by
    obtain ⟨w, -, hw, -⟩ := hone k v (Dict.get?_of_mem hn hm)
    exact ⟨w, hw⟩
  obtain ⟨e1, e2⟩ := convertTendencies_ok ht'
  refine ⟨t', ht', by rw [e1]; exact hn, fun k => by rw [e1]; exact hk k, fun k b hq hb => ?_⟩
  obtain ⟨v, hg⟩ := Dict.get?_of_mem_keys ((hk k).2 hq)
  obtain ⟨w, hw, hcw⟩ := e2 k v hg
  obtain ⟨w', b', hw', hb', hu⟩ := hone k v hg
  rw [hcw] at hw'; cases hw'
  rw [hb] at hb'; cases hb'
  exact ⟨w, hw, hu⟩

theorem stepKeys_isOk {f : String → Except Err DataArray} {ks : List String} (h : ∀ k ∈ ks, ∃ v, f k = .ok v) :
    ∃ new, stepKeys f ks = .ok new := by
  induction ks with
  | nil => exact ⟨[], rfl⟩
  | cons k ks ih =>
    obtain ⟨v, hv⟩ := h k List.mem_cons_self
    obtain ⟨new, hnew⟩ := ih fun k hk => h k (List.mem_cons_of_mem _ hk)
    unfold stepKeys
    rw [hv, Exc.ok_bind, hnew, Exc.ok_bind]
    exact ⟨_, rfl⟩

theorem step_ready (hS : Startable L Q state0) (h : Ready L Q c state0 state) {f : String → Except Err DataArray}
    {ks : List String} (hn : ks.Nodup) (hks : ∀ k, k ∈ ks ↔ k ∈ Q)
    (hf : ∀ k ∈ Q, ∀ b, Dict.get? state0 k = some (.da b) → ∃ v, f k = .ok v ∧ Likewise L b v) :
    ∃ new, stepKeys f ks = .ok new ∧ Ready L Q c state0 (copyUntouched state new) := by
  obtain ⟨new, hnew⟩ := stepKeys_isOk (f := f) (ks := ks) fun k hk => by
    obtain ⟨b, a, hb, -⟩ := h.get hS ((hks k).1 hk)
    obtain ⟨v, hv, -⟩ := hf k ((hks k).1 hk) b hb
    exact ⟨v, hv⟩
  obtain ⟨e1, e2⟩ := stepKeys_ok hnew
  refine ⟨new, hnew, h.copyUntouched hS ⟨by rw [e1]; exact hn, fun k v hv => ?_⟩⟩
  have hq : k ∈ ks := by rw [← e1]; exact Dict.mem_keys_of_get? hv
  obtain ⟨w, hw, hg⟩ := e2 k hq
  obtain ⟨b, a, hb, -⟩ := h.get hS ((hks k).1 hq)
  obtain ⟨w', hw', hl⟩ := hf k ((hks k).1 hq) b hb
  rw [hw] at hw'; cases hw'
  rw [hg] at hv; cases hv
  exact ⟨(hks k).1 hq, b, w, rfl, hb, hl⟩

/-! ## AdamsBashforth -/

/-- The memory of an AdamsBashforth in such a run. -/
structure ABReady (L : String → Nat) (Q : List String) (state0 : State) (dt : Int) (order : Nat) (ab : AB) : Prop where
  same : ab.order = order
  timestep : ab.timestep = none ∨ ab.timestep = some dt
  hist : ∀ t ∈ ab.hist, TendOk L Q state0 t
  length : ab.hist.length < order

theorem da_ok {st : State} {k : String} {a : DataArray} (h : Dict.get? st k = some (.da a)) : State.da st k = .ok a := by
  unfold State.da; rw [h]

theorem euler_entry (hS : Startable L Q state0) (h : Ready L Q c state0 state) {t : Dict DataArray}
    (ht : TendOk L Q state0 t) (dt : Int) :
    ∃ new, stepEuler state t dt = .ok new ∧ Ready L Q c state0 (copyUntouched state new) := by
  refine step_ready hS h ht.keys ht.mem fun k hk b hb => ?_
  obtain ⟨b', a, hb', ha, hl⟩ := h.get hS hk
  rw [hb] at hb'; cases hb'
  obtain ⟨v, hv, hu⟩ := ht.vals k b hk hb
  obtain ⟨r, hr, hr'⟩ := add_likewise hl (hu.smul (seconds dt))
  exact ⟨r, by rw [da_ok ha, Exc.ok_bind, Dict.get_eq_ok.2 hv, Exc.ok_bind, hr], hr'⟩

theorem second_entry (hS : Startable L Q state0) (h : Ready L Q c state0 state) {t0 t2 t1 : Dict DataArray}
    (h0 : TendOk L Q state0 t0) (h2 : TendOk L Q state0 t2) (h1 : TendOk L Q state0 t1) (dt : Int) :
    ∃ new, secondBashforth state t0 t2 t1 dt = .ok new ∧ Ready L Q c state0 (copyUntouched state new) := by
  refine step_ready hS h h0.keys h0.mem fun k hk b hb => ?_
  obtain ⟨b', a, hb', ha, hl⟩ := h.get hS hk
  rw [hb] at hb'; cases hb'
  obtain ⟨v1, hv1, hu1⟩ := h1.vals k b hk hb
  obtain ⟨v2, hv2, hu2⟩ := h2.vals k b hk hb
  obtain ⟨d1, hd1, hd1'⟩ := sub_under (hu1.smul (3 / 2)) (hu2.smul (1 / 2))
  obtain ⟨r, hr, hr'⟩ := add_likewise hl (hd1'.smul (seconds dt))
  refine ⟨r, ?_, hr'⟩
  rw [da_ok ha, Exc.ok_bind, Dict.get_eq_ok.2 hv1, Exc.ok_bind, Dict.get_eq_ok.2 hv2, Exc.ok_bind, hd1, Exc.ok_bind, hr]

theorem third_entry (hS : Startable L Q state0) (h : Ready L Q c state0 state) {t0 t3 t2 t1 : Dict DataArray}
    (h0 : TendOk L Q state0 t0) (h3 : TendOk L Q state0 t3) (h2 : TendOk L Q state0 t2) (h1 : TendOk L Q state0 t1)
    (dt : Int) :
    ∃ new, thirdBashforth state t0 t3 t2 t1 dt = .ok new ∧ Ready L Q c state0 (copyUntouched state new) := by
  refine step_ready hS h h0.keys h0.mem fun k hk b hb => ?_
  obtain ⟨b', a, hb', ha, hl⟩ := h.get hS hk
  rw [hb] at hb'; cases hb'
  obtain ⟨v1, hv1, hu1⟩ := h1.vals k b hk hb
  obtain ⟨v2, hv2, hu2⟩ := h2.vals k b hk hb
  obtain ⟨v3, hv3, hu3⟩ := h3.vals k b hk hb
  obtain ⟨d1, hd1, hd1'⟩ := sub_under (hu1.smul (23 / 12)) (hu2.smul (4 / 3))
  obtain ⟨d2, hd2, hd2'⟩ := add_under hd1' (hu3.smul (5 / 12))
  obtain ⟨r, hr, hr'⟩ := add_likewise hl (hd2'.smul (seconds dt))
  refine ⟨r, ?_, hr'⟩
  rw [da_ok ha, Exc.ok_bind, Dict.get_eq_ok.2 hv1, Exc.ok_bind, Dict.get_eq_ok.2 hv2, Exc.ok_bind, hd1, Exc.ok_bind,
    Dict.get_eq_ok.2 hv3, Exc.ok_bind, hd2, Exc.ok_bind, hr]

theorem fourth_entry (hS : Startable L Q state0) (h : Ready L Q c state0 state) {t0 t4 t3 t2 t1 : Dict DataArray}
    (h0 : TendOk L Q state0 t0) (h4 : TendOk L Q state0 t4) (h3 : TendOk L Q state0 t3) (h2 : TendOk L Q state0 t2)
    (h1 : TendOk L Q state0 t1) (dt : Int) :
    ∃ new, fourthBashforth state t0 t4 t3 t2 t1 dt = .ok new ∧ Ready L Q c state0 (copyUntouched state new) := by
  refine step_ready hS h h0.keys h0.mem fun k hk b hb => ?_
  obtain ⟨b', a, hb', ha, hl⟩ := h.get hS hk
  rw [hb] at hb'; cases hb'
  obtain ⟨v1, hv1, hu1⟩ := h1.vals k b hk hb
  obtain ⟨v2, hv2, hu2⟩ := h2.vals k b hk hb
  obtain ⟨v3, hv3, hu3⟩ := h3.vals k b hk hb
  obtain ⟨v4, hv4, hu4⟩ := h4.vals k b hk hb
  obtain ⟨d1, hd1, hd1'⟩ := sub_under (hu1.smul (55 / 24)) (hu2.smul (59 / 24))
  obtain ⟨d2, hd2, hd2'⟩ := add_under hd1' (hu3.smul (37 / 24))
  obtain ⟨d3, hd3, hd3'⟩ := sub_under hd2' (hu4.smul (3 / 8))
  obtain ⟨r, hr, hr'⟩ := add_likewise hl (hd3'.smul (seconds dt))
  refine ⟨r, ?_, hr'⟩
  rw [da_ok ha, Exc.ok_bind, Dict.get_eq_ok.2 hv1, Exc.ok_bind, Dict.get_eq_ok.2 hv2, Exc.ok_bind, hd1, Exc.ok_bind,
    Dict.get_eq_ok.2 hv3, Exc.ok_bind, hd2, Exc.ok_bind, Dict.get_eq_ok.2 hv4, Exc.ok_bind, hd3, Exc.ok_bind, hr]

theorem performStep_ready (hS : Startable L Q state0) (h : Ready L Q c state0 state) {order : Nat} (ho : order ≤ 4)
    {hist : List (Dict DataArray)} (hne : hist ≠ []) (hl : hist.length ≤ order) (hh : ∀ t ∈ hist, TendOk L Q state0 t)
    (dt : Int) :
    ∃ new, performStep order hist state dt = .ok new ∧ Ready L Q c state0 (copyUntouched state new) := by
  unfold performStep
  match hist, hne, hl, hh with
  | [], hne, _, _ => exact absurd rfl hne
  | [t1], _, hl, hh =>
    rw [show min order [t1].length = 1 from Nat.min_eq_right hl]
    exact euler_entry hS h (hh t1 (by simp)) dt
  | [t2, t1], _, hl, hh =>
    rw [show min order [t2, t1].length = 2 from Nat.min_eq_right hl]
    exact second_entry hS h (hh t2 (by simp)) (hh t2 (by simp)) (hh t1 (by simp)) dt
  | [t3, t2, t1], _, hl, hh =>
    rw [show min order [t3, t2, t1].length = 3 from Nat.min_eq_right hl]
    exact third_entry hS h (hh t3 (by simp)) (hh t3 (by simp)) (hh t2 (by simp)) (hh t1 (by simp)) dt
  | [t4, t3, t2, t1], _, hl, hh =>
    rw [show min order [t4, t3, t2, t1].length = 4 from Nat.min_eq_right hl]
    exact fourth_entry hS h (hh t4 (by simp)) (hh t4 (by simp)) (hh t3 (by simp)) (hh t2 (by simp)) (hh t1 (by simp)) dt
  | _ :: _ :: _ :: _ :: _ :: _, _, hl, _ =>
    simp only [List.length_cons] at hl
    omega

/-- One call. -/
theorem ab_ready (hS : Startable L Q state0) {N : List String} {dt : Int} {prog : Prog σ}
    (hp : Supplies R L Q N state0 dt prog) (h : Ready L Q 1 state0 state) {order : Nat} (h4 : order ≤ 4) {ab : AB}
    (hab : ABReady L Q state0 dt order ab) (s : σ) :
    ∃ ab' s' diag new, AB.call R prog ab s state dt = (ab', s', .ok (diag, new)) ∧ ABReady L Q state0 dt order ab' ∧
      Ready L Q 1 state0 new ∧ ∀ n ∈ N, n ∉ Dict.keys diag := by
  obtain ⟨r, hr, hn, hk, hv, hN⟩ := hp s state h
  obtain ⟨t, ht, htok⟩ := convert_ready hS h hn hk hv
  have hl := hab.length
  have ho := hab.same
  have hh : ∀ t' ∈ ab.hist ++ [t], TendOk L Q state0 t' := by
    intro t' hm
    rcases List.mem_append.1 hm with hm | hm
    · exact hab.hist t' hm
    · rw [List.mem_singleton.1 hm]; exact htok
  obtain ⟨new, hnew, hready⟩ := performStep_ready hS h (order := ab.order) (by omega) (hist := ab.hist ++ [t]) (by simp)
    (by rw [List.length_append, List.length_singleton]; omega) hh dt
  unfold AB.call
  rw [if_pos hab.timestep]
  simp only [hr, ht, hnew]
  refine ⟨_, _, _, _, rfl, ?_, hready, hN⟩
  by_cases he : (ab.hist ++ [t]).length = ab.order
  · rw [if_pos he]
    refine ⟨ho, .inr rfl, fun t' hm => hh t' (List.mem_of_mem_tail hm), ?_⟩
    show (ab.hist ++ [t]).tail.length < order
    rw [List.length_tail]; omega
  · rw [if_neg he]
    refine ⟨ho, .inr rfl, hh, ?_⟩
    show (ab.hist ++ [t]).length < order
    rw [List.length_append, List.length_singleton] at he ⊢
    omega

/-! ## Leapfrog -/

theorem leapfrog_entry {b o x v : DataArray} (ho : Likewise L b o) (hx : Likewise L b x) (hv : Under L b v)
    (strength alpha : Rat) (dt : Int) :
    ∃ x' n, leapfrogEntry strength alpha o x v dt = .ok (x', .ok n) ∧ Likewise L b x' ∧ Likewise L b n := by
  obtain ⟨new, h1, h1'⟩ := add_likewise ho ((hv.smul 2).smul (seconds dt))
  obtain ⟨d1, h2, h2'⟩ := sub_under ho.under (hx.under.smul 2)
  obtain ⟨d2, h3, h3'⟩ := add_under h2' h1'.under
  obtain ⟨x', h4, h4'⟩ := iadd_likewise hx ((h3'.smul (1 / 2 * strength)).smul alpha)
  unfold leapfrogEntry
  rw [h1, Exc.ok_bind, h2, Exc.ok_bind, h3, Exc.ok_bind]
  dsimp only
  rw [h4, Exc.ok_bind]
  by_cases ha : alpha ≠ 1
  · obtain ⟨n, h5, h5'⟩ := iadd_likewise h1' ((h3'.smul (1 / 2 * strength)).smul (alpha - 1))
    rw [if_pos ha, h5]
    exact ⟨x', n, rfl, h4', h5'⟩
  · rw [if_neg ha]
    exact ⟨x', new, rfl, h4', h1'⟩

/-- An earlier state with quantities like in `state0`. -/
def HadLike (L : String → Nat) (Q : List String) (state0 old : State) : Prop :=
  ∀ k ∈ Q, ∀ b, Dict.get? state0 k = some (.da b) → ∃ o, Dict.get? old k = some (.da o) ∧ Likewise L b o

theorem Ready.hadLike (hS : Startable L Q state0) (h : Ready L Q c state0 state) : HadLike L Q state0 state := by
  intro k hk b hb
  obtain ⟨b', a, hb', ha, hl⟩ := h.get hS hk
  rw [hb] at hb'; cases hb'
  exact ⟨a, ha, hl⟩

theorem stepLeapfrog_ready (hS : Startable L Q state0) {old : State} (hold : HadLike L Q state0 old)
    {t : Dict DataArray} (ht : TendOk L Q state0 t) (strength alpha : Rat) (dt : Int) : ∀ (ks : List String) (st new : State),
    (∀ k ∈ ks, k ∈ Q) → Ready L Q 1 state0 st → NewOk L Q state0 new →
    ∃ st' new', stepLeapfrog strength alpha old t dt ks st new = (st', .ok new') ∧ Ready L Q 1 state0 st' ∧
      NewOk L Q state0 new' := by
  intro ks
  induction ks with
  | nil => intro st new _ hst hnew; exact ⟨st, new, rfl, hst, hnew⟩
  | cons k ks ih =>
    intro st new hks hst hnew
    have hk := hks k List.mem_cons_self
    obtain ⟨b, x, hb, hx, hlx⟩ := hst.get hS hk
    obtain ⟨o, ho, hlo⟩ := hold k hk b hb
    obtain ⟨v, hv, hu⟩ := ht.vals k b hk hb
    obtain ⟨x', n, he, hx', hn⟩ := leapfrog_entry hlo hlx hu strength alpha dt
    have hcall : (State.da old k >>= fun o => State.da st k >>= fun x => t.get k >>= fun v =>
        leapfrogEntry strength alpha o x v dt) = .ok (x', .ok n) := by
      rw [da_ok ho, Exc.ok_bind, da_ok hx, Exc.ok_bind, Dict.get_eq_ok.2 hv, Exc.ok_bind, he]
    unfold stepLeapfrog
    simp only [hcall]
    refine ih _ _ (fun k hk => hks k (List.mem_cons_of_mem _ hk)) (hst.set hS hk hb hx') ⟨Dict.nodup_keys_set hnew.keys _ _, ?_⟩
    intro k' v' hv'
    by_cases e : k' = k
    · subst e
      rw [Dict.get?_set_self] at hv'
      cases hv'
      exact ⟨hk, b, n, rfl, hb, hn⟩
    · rw [Dict.get?_set_ne _ _ (Ne.symm e)] at hv'
      exact hnew.vals k' v' hv'

/-- The memory of a Leapfrog in such a run. -/
structure LFReady (L : String → Nat) (Q : List String) (state0 : State) (dt : Int) (lf : LF) : Prop where
  timestep : lf.timestep = none ∨ lf.timestep = some dt
  old : ∀ old, lf.old = some old → HadLike L Q state0 old

theorem lf_ready (hS : Startable L Q state0) {N : List String} {dt : Int} {prog : Prog σ}
    (hp : Supplies R L Q N state0 dt prog) (h : Ready L Q 1 state0 state) {lf : LF} (hlf : LFReady L Q state0 dt lf) (s : σ) :
    ∃ lf' s' st' diag new, LF.call R prog lf s state dt = (lf', s', st', .ok (diag, new)) ∧ LFReady L Q state0 dt lf' ∧
      Ready L Q 1 state0 st' ∧ Ready L Q 1 state0 new ∧ ∀ n ∈ N, n ∉ Dict.keys diag := by
  obtain ⟨r, hr, hn, hk, hv, hN⟩ := hp s state h
  obtain ⟨t, ht, htok⟩ := convert_ready hS h hn hk hv
  unfold LF.call
  rw [if_pos hlf.timestep]
  simp only [hr, ht]
  cases ho : lf.old with
  | none =>
    obtain ⟨new, hnew, hready⟩ := euler_entry hS h htok dt
    simp only [hnew]
    refine ⟨_, _, _, _, _, rfl, ⟨.inr rfl, fun old hold => ?_⟩, h, hready, hN⟩
    cases hold
    exact h.hadLike hS
  | some old =>
    obtain ⟨st', new, hstep, hst', hnew⟩ := stepLeapfrog_ready hS (hlf.old old ho) htok lf.strength lf.alpha dt t.keys state []
      (fun k hk => (htok.mem k).1 hk) h ⟨List.nodup_nil, fun k v hv => (by cases hv)⟩
    simp only [hstep]
    refine ⟨_, _, _, _, _, rfl, ⟨.inr rfl, fun old hold => ?_⟩, hst', hst'.copyUntouched hS hnew, hN⟩
    cases hold
    exact hst'.hadLike hS

/-! ## SSPRungeKutta -/

theorem Ready.entry (hS : Startable L Q state0) (h : Ready L Q c state0 state) {k : String} {v : Val} (hk : k ≠ "time")
    (hm : (k, v) ∈ state) : ∃ b a, Dict.get? state0 k = some (.da b) ∧ v = .da a ∧ Likewise L b a := by
  have hg := Dict.get?_of_mem h.keys hm
  obtain ⟨v0, hv0⟩ := Dict.get?_of_mem_keys ((h.mem hS k).1 (Dict.mem_keys_of_get? hg))
  obtain ⟨b, rfl, -⟩ := hS.arrays k v0 hk hv0
  obtain ⟨a, ha, hl, -⟩ := h.present k b hk hv0
  rw [hg] at ha
  cases ha
  exact ⟨b, a, hv0, rfl, hl⟩

theorem scaleStateLoop_isOk {c' : Rat} : ∀ {l out : State}, (Dict.keys l).Nodup → (Dict.keys out).Nodup →
    (∀ k v, k ≠ "time" → (k, v) ∈ l → ∃ a, v = Val.da a) →
    ∃ o, scaleStateLoop c' l out = .ok o ∧ (Dict.keys o).Nodup ∧
      (∀ k, k = "time" ∨ k ∉ Dict.keys l → Dict.get? o k = Dict.get? out k) ∧
      ∀ k a, k ≠ "time" → (k, Val.da a) ∈ l → Dict.get? o k = some (.da { a.smul c' with attrs := a.attrs }) := by
  intro l
  induction l with
  | nil => intro out _ ho _; exact ⟨out, rfl, ho, fun _ _ => rfl, fun k a _ hm => by cases hm⟩
  | cons kv l ih =>
    intro out hl ho hall
    obtain ⟨k, v⟩ := kv
    have hkk : Dict.keys ((k, v) :: l) = k :: Dict.keys l := rfl
    rw [hkk, List.nodup_cons] at hl
    unfold scaleStateLoop
    by_cases hk : k = "time"
    · rw [if_pos hk]
      obtain ⟨o, h1, h2, h3, h4⟩ := ih hl.2 ho fun k v hk hm => hall k v hk (List.mem_cons_of_mem _ hm)
      refine ⟨o, h1, h2, fun k' hk' => h3 k' ?_, fun k' a hk' hm => ?_⟩
      · rw [hkk, List.mem_cons, not_or] at hk'
        exact hk'.imp id And.right
      · rcases List.mem_cons.1 hm with e | hm
        · cases e; exact absurd hk hk'
        · exact h4 k' a hk' hm
    · rw [if_neg hk]
      obtain ⟨a, rfl⟩ := hall k v hk List.mem_cons_self
      obtain ⟨o, h1, h2, h3, h4⟩ := ih hl.2 (Dict.nodup_keys_set ho k (.da { a.smul c' with attrs := a.attrs }))
        fun k v hk hm => hall k v hk (List.mem_cons_of_mem _ hm)
      refine ⟨o, h1, h2, fun k' hk' => ?_, fun k' a' hk' hm => ?_⟩
      · rw [hkk, List.mem_cons, not_or] at hk'
        have hne : k ≠ k' := by
          rcases hk' with rfl | hk'
          · exact hk
          · exact fun e => hk'.1 e.symm
        rw [h3 k' (hk'.imp id And.right), Dict.get?_set_ne _ _ hne]
      · rcases List.mem_cons.1 hm with e | hm
        · cases e
          rw [h3 k (.inr hl.1), Dict.get?_set_self]
        · exact h4 k' a' hk' hm

theorem scaleState_ready (hS : Startable L Q state0) (h : Ready L Q c state0 state) (c' : Rat) :
    ∃ out, scaleState c' state = .ok out ∧ Ready L Q (c' * c) state0 out := by
  obtain ⟨out, h0, h1, h2, h3⟩ := scaleStateLoop_isOk (c' := c') h.keys (timeEntry_nodup state) fun k v hk hm => by
    obtain ⟨b, a, -, ha, -⟩ := h.entry hS hk hm
    exact ⟨a, ha⟩
  refine ⟨out, h0, h1, ?_, fun k hk hb => ?_, fun k b hk hb => ?_⟩
  · rw [h2 _ (.inl rfl), timeEntry_get]; exact h.time
  · rw [h2 k (.inr ((Dict.get?_eq_none_iff _ _).1 (h.absent k hk hb))), timeEntry_ne _ hk]
  · obtain ⟨a, ha, hl, hval⟩ := h.present k b hk hb
    refine ⟨_, h3 k a hk (Dict.mem_of_get? ha), ⟨hl.sized, hl.dims, hl.attrs⟩, fun hq ix => ?_⟩
    show c' * a.at' ix = c' * c * b.at' ix
    rw [hval hq ix, mul_assoc]

theorem addStatesLoop_isOk {s2 : State} : ∀ {l out : State}, (Dict.keys l).Nodup → (Dict.keys out).Nodup →
    (∀ k v, k ≠ "time" → (k, v) ∈ l → ∃ a a' r, v = Val.da a ∧ Dict.get? s2 k = some (.da a') ∧ a.add a' = .ok r) →
    ∃ o, addStatesLoop s2 l out = .ok o ∧ (Dict.keys o).Nodup ∧
      (∀ k, k = "time" ∨ k ∉ Dict.keys l → Dict.get? o k = Dict.get? out k) ∧
      ∀ k a a' r, k ≠ "time" → (k, Val.da a) ∈ l → Dict.get? s2 k = some (.da a') → a.add a' = .ok r →
        Dict.get? o k = some (.da { r with attrs := a.attrs }) := by
  intro l
  induction l with
  | nil => intro out _ ho _; exact ⟨out, rfl, ho, fun _ _ => rfl, fun k a _ _ _ hm => by cases hm⟩
  | cons kv l ih =>
    intro out hl ho hall
    obtain ⟨k, v⟩ := kv
    have hkk : Dict.keys ((k, v) :: l) = k :: Dict.keys l := rfl
    rw [hkk, List.nodup_cons] at hl
    unfold addStatesLoop
    by_cases hk : k = "time"
    · rw [if_pos hk]
      obtain ⟨o, h1, h2, h3, h4⟩ := ih hl.2 ho fun k v hk hm => hall k v hk (List.mem_cons_of_mem _ hm)
      refine ⟨o, h1, h2, fun k' hk' => h3 k' ?_, fun k' a a' r hk' hm => ?_⟩
      · rw [hkk, List.mem_cons, not_or] at hk'
        exact hk'.imp id And.right
      · rcases List.mem_cons.1 hm with e | hm
        · cases e; exact absurd hk hk'
        · exact h4 k' a a' r hk' hm
    · rw [if_neg hk]
      obtain ⟨a, a', r, rfl, ha', hr⟩ := hall k v hk List.mem_cons_self
      obtain ⟨o, h1, h2, h3, h4⟩ := ih hl.2 (Dict.nodup_keys_set ho k (.da { r with attrs := a.attrs }))
        fun k v hk hm => hall k v hk (List.mem_cons_of_mem _ hm)
      simp only [da_ok ha', Exc.ok_bind, hr]
      refine ⟨o, h1, h2, fun k' hk' => ?_, fun k' b b' r' hk' hm hb' hr' => ?_⟩
      · rw [hkk, List.mem_cons, not_or] at hk'
        have hne : k ≠ k' := by
          rcases hk' with rfl | hk'
          · exact hk
          · exact fun e => hk'.1 e.symm
        rw [h3 k' (hk'.imp id And.right), Dict.get?_set_ne _ _ hne]
      · rcases List.mem_cons.1 hm with e | hm
        · cases e
          rw [ha'] at hb'; cases hb'
          rw [hr] at hr'; cases hr'
          rw [h3 k (.inr hl.1), Dict.get?_set_self]
        · exact h4 k' b b' r' hk' hm hb' hr'

theorem addStates_ready (hS : Startable L Q state0) {c1 c2 : Rat} {s1 s2 : State} (h : Ready L Q c1 state0 s1)
    (h' : Ready L Q c2 state0 s2) : ∃ out, addStates s1 s2 = .ok out ∧ Ready L Q (c1 + c2) state0 out := by
  obtain ⟨out, h0, h1, h2, h3⟩ := addStatesLoop_isOk (s2 := s2) h.keys (timeEntry_nodup s1) fun k v hk hm => by
    obtain ⟨b, a, hb, ha, hl⟩ := h.entry hS hk hm
    obtain ⟨a', ha', hl', -⟩ := h'.present k b hk hb
    obtain ⟨r, hr, -⟩ := add_likewise hl hl'.under
    exact ⟨a, a', r, ha, ha', hr⟩
  refine ⟨out, h0, h1, ?_, fun k hk hb => ?_, fun k b hk hb => ?_⟩
  · rw [h2 _ (.inl rfl), timeEntry_get]; exact h.time
  · rw [h2 k (.inr ((Dict.get?_eq_none_iff _ _).1 (h.absent k hk hb))), timeEntry_ne _ hk]
  · obtain ⟨a, ha, hl, hval⟩ := h.present k b hk hb
    obtain ⟨a', ha', hl', hval'⟩ := h'.present k b hk hb
    obtain ⟨r, hr, hlr⟩ := add_likewise hl hl'.under
    refine ⟨_, h3 k a a' r hk (Dict.mem_of_get? ha) ha' hr, ⟨hlr.sized, hlr.dims, hl.attrs⟩, fun hq ix => ?_⟩
    obtain ⟨-, e2⟩ := add_values hl.sized hl'.sized hr
    show r.at' ix = _
    rw [e2 ix, hval hq ix, hval' hq ix, add_mul]

theorem euler_ready (hS : Startable L Q state0) {N : List String} {dt : Int} {prog : Prog σ}
    (hp : Supplies R L Q N state0 dt prog) (h : Ready L Q 1 state0 state) {ab : AB}
    (hab : ABReady L Q state0 dt 1 ab) (s : σ) :
    ∃ ab' s' diag new, eulerCall R prog ab s state dt = (ab', s', .ok (diag, new)) ∧ ABReady L Q state0 dt 1 ab' ∧
      Ready L Q 1 state0 new ∧ ∀ n ∈ N, n ∉ Dict.keys diag := by
  obtain ⟨ab', s', diag, new, hc, hab', hnew, hN⟩ := ab_ready hS hp h (by omega) hab s
  unfold eulerCall
  rw [hc]
  exact ⟨ab', s', diag, _, rfl, hab', hnew.again hS h, hN⟩

theorem ssprk_ready (hS : Startable L Q state0) {N : List String} {dt : Int} {prog : Prog σ}
    (hp : Supplies R L Q N state0 dt prog) (h : Ready L Q 1 state0 state) (three : Bool) {ab : AB}
    (hab : ABReady L Q state0 dt 1 ab) (s : σ) :
    ∃ ab' s' diag new, ssprkCall R prog three ab s state dt = (ab', s', .ok (diag, new)) ∧
      ABReady L Q state0 dt 1 ab' ∧ Ready L Q 1 state0 new ∧ ∀ n ∈ N, n ∉ Dict.keys diag := by
  obtain ⟨ab1, s1, diag, new1, hc1, hab1, hn1, hN⟩ := euler_ready hS hp h hab s
  obtain ⟨ab2, s2, diag2, new2, hc2, hab2, hn2, -⟩ := euler_ready hS hp hn1 hab1 s1
  unfold ssprkCall
  cases three with
  | false =>
    obtain ⟨x, hx, hx'⟩ := addStates_ready hS h hn2
    obtain ⟨y, hy, hy'⟩ := scaleState_ready hS hx' (1 / 2)
    rw [if_neg (by decide)]
    unfold ssprk2
    simp only [hc1, hc2, hx, Exc.ok_bind, hy]
    exact ⟨_, _, _, _, rfl, hab2, by norm_num at hy'; exact hy', hN⟩
  | true =>
    obtain ⟨x, hx, hx'⟩ := scaleState_ready hS h (3 / 4)
    obtain ⟨y, hy, hy'⟩ := scaleState_ready hS hn2 (1 / 4)
    obtain ⟨z, hz, hz'⟩ := addStates_ready hS hx' hy'
    have hz1 : Ready L Q 1 state0 z := by norm_num at hz'; exact hz'
    obtain ⟨ab3, s3, diag3, new3, hc3, hab3, hn3, -⟩ := euler_ready hS hp hz1 hab2 s2
    obtain ⟨x2, hx2, hx2'⟩ := scaleState_ready hS h (1 / 3)
    obtain ⟨y2, hy2, hy2'⟩ := scaleState_ready hS hn3 (2 / 3)
    obtain ⟨z2, hz2, hz2'⟩ := addStates_ready hS hx2' hy2'
    rw [if_pos rfl]
    unfold ssprk3
    simp only [hc1, hc2, hx, hy, hz, Exc.ok_bind, hc3, hx2, hy2, hz2]
    exact ⟨_, _, _, _, rfl, hab3, by norm_num at hz2'; exact hz2', hN⟩

/-! ## TendencyStepper -/

theorem toUnits_likewise {b a : DataArray} (h : Likewise L b a) {own u : String} {pa pb : PintUnit}
    (hu : b.attrs.get? "units" = some own) (hpa : R.parse own = some pa) (hpb : R.parse u = some pb)
    (hd : pa.dim = pb.dim) : ∃ r, a.toUnits R u = .ok r ∧ Under L b r := by
  obtain ⟨r, hr⟩ := toUnits_isOk (v := a) (by rw [h.attrs]; exact hu) hpa hpb hd
  obtain ⟨e1, e2⟩ := toUnits_shape hr
  exact ⟨r, hr, ⟨e1 ▸ h.sized.1, by rw [e2, e1]; exact h.sized.2⟩, fun d hd => h.dims ▸ (e1 ▸ hd)⟩

theorem insertNet_ready {inProps outProps : PropDict} {inst : String}
    (hrep : Reportable R inProps outProps state0) {st new : State} {c' : Rat} (hst : Ready L Q c state0 st)
    (hnew : Ready L Q c' state0 new) (dt : Int) : ∀ (ks : List String) (diag : Dict DataArray), ks.Nodup →
    (∀ n ∈ ks, n ∈ Dict.keys outProps) → (∀ n ∈ ks, tendencyName n inst ∉ Dict.keys diag) →
    ∃ d, insertNet R inProps inst st new dt ks diag = .ok d := by
  intro ks
  induction ks with
  | nil => intro diag _ _ _; exact ⟨diag, rfl⟩
  | cons n ks ih =>
    intro diag hnd hks hdiag
    rw [List.nodup_cons] at hnd
    obtain ⟨hne, p, u, b, own, pa, pb, hp, hpu, hb, hown, hpa, hpb, hdim⟩ := hrep.units n (hks n List.mem_cons_self)
    obtain ⟨a1, ha1, hl1, -⟩ := hst.present n b hne hb
    obtain ⟨a2, ha2, hl2, -⟩ := hnew.present n b hne hb
    obtain ⟨r1, hr1, hu1⟩ := toUnits_likewise hl1 hown hpa hpb hdim
    obtain ⟨r2, hr2, hu2⟩ := toUnits_likewise hl2 hown hpa hpb hdim
    obtain ⟨r, hr, -⟩ := sub_under hu2 hu1
    unfold insertNet netTendency
    rw [if_neg (hdiag n List.mem_cons_self)]
    simp only [Dict.get_eq_ok.2 hp, Exc.ok_bind, hpu, da_ok ha1, da_ok ha2, hr1, hr2, hr]
    refine ih _ hnd.2 (fun n hn => hks n (List.mem_cons_of_mem _ hn)) fun n' hn' => ?_
    rw [Dict.keys_set]
    split
    · exact hdiag n' (List.mem_cons_of_mem _ hn')
    · rw [List.mem_append, not_or]
      refine ⟨hdiag n' (List.mem_cons_of_mem _ hn'), fun hm => ?_⟩
      have := tendencyName_inj (List.mem_singleton.1 hm)
      exact hnd.1 (this ▸ hn')

theorem tsCall_ready (hS : Startable L Q state0) {inProps outProps : PropDict} {inst : String} {tid : Bool} {N : List String}
    (hrep : tid = true → Reports R inProps outProps inst N state0)
    {call : τ → σ → State → Int → τ × σ × State × Except Err (Dict DataArray × State)} {x x' : τ} {s s' : σ}
    {st' new : State} {diag : Dict DataArray} {dt : Int}
    (hc : call x s state dt = (x', s', st', .ok (diag, new))) (hst : Ready L Q 1 state0 st')
    (hnew : Ready L Q 1 state0 new) (hN : ∀ n ∈ N, n ∉ Dict.keys diag) :
    ∃ diag' new', tsCall R inProps outProps inst tid call x s state dt = (x', s', st', .ok (diag', new')) ∧
      Ready L Q 1 state0 new' := by
  have hagain := hnew.again hS hst
  unfold tsCall
  simp only [hc, Exc.ok_bind]
  cases tid with
  | false => exact ⟨diag, _, rfl, hagain⟩
  | true =>
    obtain ⟨h1, h2⟩ := hrep rfl
    obtain ⟨d, hd⟩ := insertNet_ready (inst := inst) h1 hst hagain dt (Dict.keys outProps) diag h1.keys (fun n hn => hn)
      (fun n hn => hN _ (h2 n hn))
    rw [if_pos rfl, hd, Exc.ok_bind]
    exact ⟨d, _, rfl, hagain⟩

theorem runSteps_ready {call : τ → σ → State → Int → τ × σ × State × Except Err (Dict DataArray × State)} {dt : Int}
    {I : τ → Prop} (hstep : ∀ x s state, I x → Ready L Q 1 state0 state → ∃ x' s' st' diag new,
      call x s state dt = (x', s', st', .ok (diag, new)) ∧ I x' ∧ Ready L Q 1 state0 new) :
    ∀ (n : Nat) (x : τ) (s : σ) (state : State), I x → Ready L Q 1 state0 state →
      ∃ r, runSteps call dt n x s state = some r ∧ Ready L Q 1 state0 r.2.2 := by
  intro n
  induction n with
  | zero => intro x s state _ h; exact ⟨_, rfl, h⟩
  | succ n ih =>
    intro x s state hx h
    obtain ⟨x', s', st', diag, new, hc, hx', hnew⟩ := hstep x s state hx h
    obtain ⟨r, hr, hr'⟩ := ih x' s' new hx' hnew
    refine ⟨r, ?_, hr'⟩
    unfold runSteps
    simp only [hc]
    exact hr

end

/-! ## Composites -/

section
variable {Q N : List String} {state0 : State} {dt : Int}

/-- Tendencies that can be added to those of other components. -/
def SumOk (R : Registry) (L : String → Nat) (state0 : State) (t : Dict DataArray) : Prop :=
  ∀ k v, Dict.get? t k = some v → (∃ b, Dict.get? state0 k = some (.da b) ∧ FitsRate R L b v) ∧
    v.attrs.get? "units" ≠ none

theorem addInto_sumOk {ts t : Dict DataArray} (hn : (Dict.keys ts).Nodup) (hts : SumOk R L state0 ts)
    (ht : SumOk R L state0 t) : ∃ t', addInto R ts t = .ok t' ∧ SumOk R L state0 t' ∧
      ∀ k, k ∈ Dict.keys t' ↔ k ∈ Dict.keys ts ∨ k ∈ Dict.keys t := by
  have hone : ∀ n v, Dict.get? ts n = some v → ∃ w, addOne R (Dict.get? t n) v = .ok w ∧
      (∃ b, Dict.get? state0 n = some (.da b) ∧ FitsRate R L b w) ∧ w.attrs.get? "units" ≠ none := by
    intro n v hv
    obtain ⟨⟨b, hb, hf⟩, hu⟩ := hts n v hv
    unfold addOne
    cases hw : Dict.get? t n with
    | none => exact ⟨v, rfl, ⟨b, hb, hf⟩, hu⟩
    | some w =>
      obtain ⟨⟨b', hb', hf'⟩, hu'⟩ := ht n w hw
      rw [hb] at hb'; cases hb'
      obtain ⟨own, u, pa, pb, h1, h2, h3, h4, h5⟩ := hf.units.resolve_left hu
      obtain ⟨own', u', pa', pb', h1', h2', h3', h4', h5'⟩ := hf'.units.resolve_left hu'
      rw [h2] at h2'; cases h2'
      rw [h4] at h4'; cases h4'
      obtain ⟨v', hv'⟩ := toUnits_isOk (v := v) h1 h3 h3' (h5.trans h5'.symm)
      obtain ⟨e1, e2⟩ := toUnits_shape hv'
      have hs' : v'.Sized L := ⟨e1 ▸ hf.sized.1, by rw [e2, e1]; exact hf.sized.2⟩
      obtain ⟨r, hr, hr1, hr2⟩ := sized_binop hf'.sized hs' (· + ·)
      have hadd : w.add v' = .ok { r with attrs := w.attrs } := by
        unfold DataArray.add; rw [hr, Exc.ok_bind]
      simp only [h1, h1', hv', Exc.ok_bind, hadd]
      refine ⟨_, rfl, ⟨b, hb, hr1, fun d hd => ?_, .inr ⟨own', u, pa', pb, h1', h2, h3', h4, h5'⟩⟩, ?_⟩
      · change d ∈ r.dims at hd
        rw [hr2] at hd
        rcases List.mem_append.1 hd with hd | hd
        · exact hf'.dims d hd
        · exact hf.dims d (e1 ▸ (List.mem_filter.1 hd).1)
      · exact hu'
  obtain ⟨t', ht'⟩ := addInto_isOk hn fun n v hv => by
    obtain ⟨w, hw, -⟩ := hone n v hv
    exact ⟨w, hw⟩
  refine ⟨t', ht', fun k v hv => ?_, fun k => ?_⟩
  · rcases addInto_get? hn ht' k with ⟨-, h⟩ | ⟨x, w, hx, hw, h⟩
    · exact ht k v (h ▸ hv)
    · rw [hv] at h; cases h
      obtain ⟨w', hw', hrest⟩ := hone k x hx
      rw [hw] at hw'; cases hw'
      exact hrest
  · rw [← Dict.get?_isSome_iff]
    rcases addInto_get? hn ht' k with ⟨h1, h⟩ | ⟨x, w, hx, hw, h⟩
    · rw [h, Dict.get?_isSome_iff]
      exact ⟨.inr, fun h' => h'.resolve_left ((Dict.get?_eq_none_iff _ _).1 h1)⟩
    · rw [h]
      exact ⟨fun _ => .inl (Dict.mem_keys_of_get? hx), fun _ => rfl⟩

/-- **C99.**  A composite of components that give tendencies which fit supplies tendencies
which fit: the sums do not raise. -/
theorem composite_supplies (P : Comp σ → List String) {cs : List (Comp σ)} (hQ : ∀ k, k ∈ Q ↔ ∃ c ∈ cs, k ∈ P c)
    (h : ∀ c ∈ cs, GivesRates R L Q (P c) N state0 dt fun s state dt => implicitCall c state dt s) :
    Supplies R L Q N state0 dt fun s state dt => callImplicitComposite R cs s state dt := by
  intro s state hst
  have key : ∀ (cs : List (Comp σ)) (s : σ) (t d : Dict DataArray),
      (∀ c ∈ cs, GivesRates R L Q (P c) N state0 dt fun s state dt => implicitCall c state dt s) →
      (Dict.keys t).Nodup → SumOk R L state0 t → (∀ n ∈ N, n ∉ Dict.keys d) →
      ∃ r, (compositeLoop R (cs.map fun c => implicitCall c state dt) s t d).2 = .ok r ∧ (Dict.keys r.1).Nodup ∧
        (∀ k, k ∈ Dict.keys r.1 ↔ k ∈ Dict.keys t ∨ ∃ c ∈ cs, k ∈ P c) ∧ SumOk R L state0 r.1 ∧
        ∀ n ∈ N, n ∉ Dict.keys r.2 := by
    intro cs
    induction cs with
    | nil =>
      intro s t d _ hn ht hd
      exact ⟨(t, d), rfl, hn, fun k => by simp, ht, hd⟩
    | cons c cs ih =>
      intro s t d h hn ht hd
      obtain ⟨r, hr, hr1, hr2, hr3, hr4⟩ := h c List.mem_cons_self s state hst
      obtain ⟨t', ht', hs', hk'⟩ := addInto_sumOk hr1 hr3 ht
      rw [List.map_cons]
      unfold compositeLoop
      simp only [hr, ht']
      obtain ⟨r', e1, e2, e3, e4, e5⟩ := ih (implicitCall c state dt s).1 t' (d.update r.2)
        (fun c hc => h c (List.mem_cons_of_mem _ hc)) (addInto_nodup hn ht') hs' (fun n hn hm => by
          rcases (Dict.mem_keys_update _ _ _).1 hm with hm | hm
          · exact hd n hn hm
          · exact hr4 n hn hm)
      refine ⟨r', e1, e2, fun k => ?_, e4, e5⟩
      rw [e3, hk', hr2, List.exists_mem_cons_iff]
      tauto
  obtain ⟨r, e1, e2, e3, e4, e5⟩ := key cs s [] [] h List.nodup_nil (fun k v hv => by cases hv) (fun n _ hm => by cases hm)
  refine ⟨r, e1, e2, fun k => ?_, fun k v hv => (e4 k v hv).1, e5⟩
  rw [e3, hQ]
  exact ⟨fun h => h.resolve_left (by intro hm; cases hm), .inr⟩

end

section
variable {Q N : List String} {state : State} {dt : Int} {prog : Prog σ} {inProps outProps : PropDict} {inst : String}
  {tid : Bool}

/-- **C99.**  AdamsBashforth of any order: if the components do not raise for states like the
first one and give tendencies that fit, then any number of steps succeeds, and the last state
has the quantities of the first one, with the same dimensions, lengths and attributes; those
not stepped have the same values. -/
theorem ab_completes (hS : Startable L Q state) (hp : Supplies R L Q N state dt prog)
    (hrep : tid = true → Reports R inProps outProps inst N state) (k : Int) (ab : AB) (hk : AB.make k = .ok ab) (n : Nat)
    (s : σ) : ∃ r, runSteps (tsCall R inProps outProps inst tid (abCall R prog)) dt n ab s state = some r ∧
      Ready L Q 1 state r.2.2 := by
  obtain ⟨k1, k4, -⟩ := AB.make_order hk
  have h0 : ABReady L Q state dt ab.order ab := by
    unfold AB.make at hk
    split at hk
    · cases hk
      exact ⟨rfl, .inl rfl, fun t ht => (by cases ht), k1⟩
    · cases hk
  refine runSteps_ready (I := ABReady L Q state dt ab.order) (fun x s st hx hst => ?_) n ab s state h0 (Ready.start hS)
  obtain ⟨ab', s', diag, new, hc, hab', hnew, hN⟩ := ab_ready hS hp hst k4 hx s
  obtain ⟨diag', new', h1, h2⟩ := tsCall_ready (call := abCall R prog) hS hrep (by unfold abCall; rw [hc]) hst hnew hN
  exact ⟨ab', s', st, diag', new', h1, hab', h2⟩

/-- **C99.**  Leapfrog with any filter. -/
theorem lf_completes (hS : Startable L Q state) (hp : Supplies R L Q N state dt prog)
    (hrep : tid = true → Reports R inProps outProps inst N state) (strength alpha : Rat) (n : Nat) (s : σ) :
    ∃ r, runSteps (tsCall R inProps outProps inst tid (LF.call R prog)) dt n { strength := strength, alpha := alpha } s state =
      some r ∧ Ready L Q 1 state r.2.2 := by
  refine runSteps_ready (I := LFReady L Q state dt) (fun x s st hx hst => ?_) n _ s state
    ⟨.inl rfl, fun old h => by cases h⟩ (Ready.start hS)
  obtain ⟨lf', s', st', diag, new, hc, hlf', hst', hnew, hN⟩ := lf_ready hS hp hst hx s
  obtain ⟨diag', new', h1, h2⟩ := tsCall_ready (call := LF.call R prog) hS hrep hc hst' hnew hN
  exact ⟨lf', s', st', diag', new', h1, hlf', h2⟩

/-- **C99.**  SSPRungeKutta with two or three stages. -/
theorem ssprk_completes (hS : Startable L Q state) (hp : Supplies R L Q N state dt prog)
    (hrep : tid = true → Reports R inProps outProps inst N state) (three : Bool) (n : Nat) (s : σ) :
    ∃ r, runSteps (tsCall R inProps outProps inst tid (sspCall R prog three)) dt n { order := 1 } s state = some r ∧
      Ready L Q 1 state r.2.2 := by
  refine runSteps_ready (I := ABReady L Q state dt 1) (fun x s st hx hst => ?_) n _ s state
    ⟨rfl, .inl rfl, fun t ht => (by cases ht), by decide⟩ (Ready.start hS)
  obtain ⟨ab', s', diag, new, hc, hab', hnew, hN⟩ := ssprk_ready hS hp hst three hx s
  obtain ⟨diag', new', h1, h2⟩ := tsCall_ready (call := sspCall R prog three) hS hrep (by unfold sspCall; rw [hc]) hst hnew hN
  exact ⟨ab', s', st, diag', new', h1, hab', h2⟩

end

end Verif
