import Verif.Props.AdamsBashforth
/-! # Leapfrog: properties C31, C34, C36 -/

namespace Verif

variable {σ : Type}

theorem iadd_ok {a b r : DataArray} (h : a.iadd b = .ok r) :
    r.attrs = a.attrs ∧ r.dims = a.dims ∧ ∀ ix, r.at' ix = a.at' ix + b.at' ix := by
  unfold DataArray.iadd at h
  split at h
  · rename_i hd
    obtain ⟨h1, h2, h3⟩ := add_ok h
    refine ⟨h1, ?_, h3⟩
    rw [h2]
    have : b.dims.filter (fun d => d ∉ a.dims) = [] := by
      rw [List.filter_eq_nil_iff]
      intro d hdb
      simp [hd d hdb]
    rw [this, List.append_nil]
  · cases h

/-- What the filter and the step do to one quantity. -/
structure LFEntry (ν α : Rat) (dt : Int) (o x v x' n : DataArray) : Prop where
  attrs_cur : x'.attrs = x.attrs
  dims_cur : x'.dims = x.dims
  attrs_new : n.attrs = o.attrs
  cur : ∀ ix, x'.at' ix = x.at' ix +
    α * filterDisplacement ν (o.at' ix) (x.at' ix) (o.at' ix + 2 * seconds dt * v.at' ix)
  new : ∀ ix, n.at' ix = o.at' ix + 2 * seconds dt * v.at' ix +
    (α - 1) * filterDisplacement ν (o.at' ix) (x.at' ix) (o.at' ix + 2 * seconds dt * v.at' ix)

theorem leapfrogEntry_ok {ν α : Rat} {dt : Int} {o x v n : DataArray} {r : DataArray × Except Err DataArray}
    (h : leapfrogEntry ν α o x v dt = .ok r) (hn : r.2 = .ok n) : LFEntry ν α dt o x v r.1 n := by
  unfold leapfrogEntry at h
  obtain ⟨n0, h0, h⟩ := Exc.bind_ok_iff.1 h
  obtain ⟨d, hd, h⟩ := Exc.bind_ok_iff.1 h
  obtain ⟨d', hd', h⟩ := Exc.bind_ok_iff.1 h
  obtain ⟨x', hx', h⟩ := Exc.bind_ok_iff.1 h
  injection h with h
  subst h
  obtain ⟨n1, _, n3⟩ := add_ok h0
  obtain ⟨_, _, s3⟩ := sub_ok hd
  obtain ⟨_, _, a3⟩ := add_ok hd'
  obtain ⟨x1, x2, x3⟩ := iadd_ok hx'
  have hfilt : ∀ ix, (d'.smul (1 / 2 * ν)).at' ix =
      filterDisplacement ν (o.at' ix) (x.at' ix) (o.at' ix + 2 * seconds dt * v.at' ix) := by
    intro ix
    rw [smul_at, a3, s3, n3, smul_at, smul_at, smul_at]
    unfold filterDisplacement
    ring
  have hn0 : ∀ ix, n0.at' ix = o.at' ix + 2 * seconds dt * v.at' ix := by
    intro ix
    rw [n3, smul_at, smul_at]; ring
  simp only at hn
  split at hn
  · obtain ⟨m1, _, m3⟩ := iadd_ok hn
    refine ⟨x1, x2, m1.trans n1, ?_, ?_⟩
    · intro ix; rw [x3, smul_at, hfilt]
    · intro ix; rw [m3, smul_at, hfilt, hn0]
  · rename_i hα
    injection hn with hn
    subst hn
    have hα : α = 1 := by
      by_contra hne; exact hα hne
    refine ⟨x1, x2, n1, ?_, ?_⟩
    · intro ix; rw [x3, smul_at, hfilt]
    · intro ix; rw [hn0, hα]; ring

theorem stepLeapfrog_ok {ν α : Rat} {old : State} {t : Dict DataArray} {dt : Int} :
    ∀ {ks : List String} {state new0 state' new : State}, ks.Nodup →
      stepLeapfrog ν α old t dt ks state new0 = (state', .ok new) →
      (∀ k, k ∈ Dict.keys state' ↔ k ∈ Dict.keys state) ∧
      (∀ k, k ∈ Dict.keys new ↔ k ∈ Dict.keys new0 ∨ k ∈ ks) ∧
      (∀ k, k ∉ ks → Dict.get? state' k = Dict.get? state k ∧ Dict.get? new k = Dict.get? new0 k) ∧
      (∀ k ∈ ks, ∃ o x v x' n, Dict.get? old k = some (.da o) ∧ Dict.get? state k = some (.da x) ∧
        t.get? k = some v ∧ Dict.get? state' k = some (.da x') ∧ Dict.get? new k = some (.da n) ∧
        LFEntry ν α dt o x v x' n) := by
  intro ks
  induction ks with
  | nil =>
    intro state new0 state' new _ h
    unfold stepLeapfrog at h
    simp only [Prod.mk.injEq, Except.ok.injEq] at h
    obtain ⟨rfl, rfl⟩ := h
    exact ⟨fun k => Iff.rfl, fun k => by simp, fun k _ => ⟨rfl, rfl⟩, fun k hk => by simp at hk⟩
  | cons k ks ih =>
    intro state new0 state' new hnd h
    rw [List.nodup_cons] at hnd
    unfold stepLeapfrog at h
    split at h
    · cases h
    · rename_i r hr
      obtain ⟨o, ho, hr⟩ := Exc.bind_ok_iff.1 hr
      obtain ⟨x, hx, hr⟩ := Exc.bind_ok_iff.1 hr
      obtain ⟨v, hv, hr⟩ := Exc.bind_ok_iff.1 hr
      split at h
      · cases h
      · rename_i n hn
        obtain ⟨i1, i2, i3, i4⟩ := ih hnd.2 h
        have hent := leapfrogEntry_ok hr hn
        have ho := State.da_ok.1 ho
        have hx := State.da_ok.1 hx
        have hv := Dict.get_eq_ok.1 hv
        refine ⟨?_, ?_, ?_, ?_⟩
        · intro q
          rw [i1, Dict.mem_keys_set]
          constructor
          · rintro (rfl | h)
            · exact Dict.mem_keys_of_get? hx
            · exact h
          · exact Or.inr
        · intro q
          rw [i2, Dict.mem_keys_set, List.mem_cons]
          constructor
          · rintro ((h | h) | h)
            · exact Or.inr (Or.inl h)
            · exact Or.inl h
            · exact Or.inr (Or.inr h)
          · rintro (h | h | h)
            · exact Or.inl (Or.inr h)
            · exact Or.inl (Or.inl h)
            · exact Or.inr h
        · intro q hq
          rw [List.mem_cons, not_or] at hq
          obtain ⟨j1, j2⟩ := i3 q hq.2
          rw [j1, j2, Dict.get?_set_ne _ _ (Ne.symm hq.1), Dict.get?_set_ne _ _ (Ne.symm hq.1)]
          exact ⟨rfl, rfl⟩
        · intro q hq
          by_cases hqk : q = k
          · subst hqk
            obtain ⟨j1, j2⟩ := i3 q hnd.1
            rw [Dict.get?_set_self] at j1 j2
            exact ⟨o, x, v, r.1, n, ho, hx, hv, j1, j2, hent⟩
          · rcases List.mem_cons.1 hq with rfl | hq
            · exact absurd rfl hqk
            · obtain ⟨o', x', v', y, m, e1, e2, e3, e4, e5, e6⟩ := i4 q hq
              rw [Dict.get?_set_ne _ _ (Ne.symm hqk)] at e2
              exact ⟨o', x', v', y, m, e1, e2, e3, e4, e5, e6⟩

/-- Keys of the components' tendency dictionary are distinct (a Python dict). -/
def Prog.Dicts (prog : Prog σ) : Prop :=
  ∀ s state dt r, (prog s state dt).2 = .ok r → (Dict.keys r.1).Nodup

/-- The successful calls of a Leapfrog. -/
theorem lf_ok {R : Registry} {prog : Prog σ} {lf lf' : LF} {s s' : σ} {state st' : State} {dt : Int}
    {diag : Dict DataArray} {new : State}
    (h : LF.call R prog lf s state dt = (lf', s', st', .ok (diag, new))) :
    (lf.timestep = none ∨ lf.timestep = some dt) ∧ lf' = { lf with timestep := some dt, old := some st' } ∧
    ∃ r t, (prog s state dt).2 = .ok r ∧ diag = r.2 ∧ convertTendencies R state r.1 = .ok t ∧
      lfTendency R prog lf s state dt = some t ∧ Dict.keys t = Dict.keys r.1 ∧
      ((lf.old = none ∧ st' = state ∧ ∃ n, stepEuler state t dt = .ok n ∧ new = copyUntouched state n) ∨
      (∃ old n, lf.old = some old ∧ new = copyUntouched st' n ∧
        stepLeapfrog lf.strength lf.alpha old t dt t.keys state [] = (st', .ok n))) := by
  unfold LF.call at h
  split at h
  · rename_i hts
    simp only at h
    cases hr : (prog s state dt).2 with
    | error e => rw [hr] at h; cases h
    | ok r =>
      rw [hr] at h
      simp only at h
      cases hc : convertTendencies R state r.1 with
      | error e => rw [hc] at h; cases h
      | ok t =>
        have htend : lfTendency R prog lf s state dt = some t := by
          unfold lfTendency abTendency
          rw [if_pos hts]
          simp only [hr, hc]; rfl
        rw [hc] at h
        simp only at h
        cases hold : lf.old with
        | none =>
          rw [hold] at h
          simp only at h
          cases he : stepEuler state t dt with
          | error e => rw [he] at h; cases h
          | ok n =>
            rw [he] at h
            simp only [Prod.mk.injEq, Except.ok.injEq] at h
            obtain ⟨rfl, _, rfl, rfl, rfl⟩ := h
            exact ⟨hts, rfl, r, t, rfl, rfl, hc, htend, (convertTendencies_ok hc).1,
              Or.inl ⟨rfl, rfl, n, he, rfl⟩⟩
        | some old =>
          rw [hold] at h
          simp only at h
          cases he : stepLeapfrog lf.strength lf.alpha old t dt t.keys state [] with
          | mk p1 p2 =>
            rw [he] at h
            simp only at h
            cases p2 with
            | error e => simp at h
            | ok n =>
              simp only [Prod.mk.injEq, Except.ok.injEq] at h
              obtain ⟨rfl, _, rfl, rfl, rfl⟩ := h
              exact ⟨hts, rfl, r, t, rfl, rfl, hc, htend, (convertTendencies_ok hc).1,
                Or.inr ⟨old, n, rfl, rfl, he⟩⟩
  · cases h

/-- C31 (Leapfrog): the new state has exactly the keys of the caller's state, the same
time, and the old value of each quantity without a tendency; of the caller's state only
quantities with a tendency are changed. -/
theorem lf_untouched {R : Registry} {prog : Prog σ} (hd : prog.Dicts) {lf lf' : LF} {s s' : σ} {state st' : State}
    {dt : Int} {diag : Dict DataArray} {new : State}
    (h : LF.call R prog lf s state dt = (lf', s', st', .ok (diag, new))) :
    ∃ r, (prog s state dt).2 = .ok r ∧ diag = r.2 ∧
      (∀ q, q ∈ Dict.keys new ↔ q ∈ Dict.keys state) ∧
      (∀ q, q ∈ Dict.keys st' ↔ q ∈ Dict.keys state) ∧
      (∀ t, Dict.get? state "time" = some (.time t) →
        Dict.get? new "time" = some (.time t) ∧ Dict.get? st' "time" = some (.time t)) ∧
      ∀ q, q ∉ Dict.keys r.1 → Dict.get? new q = Dict.get? state q ∧ Dict.get? st' q = Dict.get? state q := by
  obtain ⟨_, _, r, t, hr, rfl, _, _, hk, hcase⟩ := lf_ok h
  refine ⟨r, hr, rfl, ?_⟩
  rcases hcase with ⟨_, rfl, n, hn, rfl⟩ | ⟨old, n, _, rfl, hn⟩
  · unfold stepEuler at hn
    obtain ⟨k1, k2⟩ := stepKeys_ok hn
    obtain ⟨c1, c2, c3⟩ := copyUntouched_spec st' n
    have hin : ∀ q, q ∈ Dict.keys n → ∃ x, Dict.get? st' q = some (.da x) := by
      intro q hq
      rw [k1] at hq
      obtain ⟨v, hv, _⟩ := k2 q hq
      obtain ⟨x, hx, _⟩ := Exc.bind_ok_iff.1 hv
      exact ⟨x, State.da_ok.1 hx⟩
    refine ⟨?_, fun q => Iff.rfl, ?_, ?_⟩
    · intro q
      rw [c1]
      constructor
      · rintro (h | h)
        · exact h
        · obtain ⟨x, hx⟩ := hin q h
          exact Dict.mem_keys_of_get? hx
      · exact Or.inl
    · intro t' ht'
      refine ⟨?_, ht'⟩
      rw [c3, ht']
      intro hmem
      obtain ⟨x, hx⟩ := hin _ hmem
      rw [ht'] at hx; cases hx
    · intro q hq
      refine ⟨c3 q ?_, rfl⟩
      rw [k1, hk]; exact hq
  · obtain ⟨i1, i2, i3, i4⟩ := stepLeapfrog_ok (by rw [hk]; exact hd _ _ _ _ hr) hn
    obtain ⟨c1, c2, c3⟩ := copyUntouched_spec st' n
    have hn' : ∀ q, q ∈ Dict.keys n ↔ q ∈ Dict.keys t := by
      intro q; rw [i2]; simp [Dict.keys]
    have hin : ∀ q, q ∈ Dict.keys t → ∃ x, Dict.get? state q = some (.da x) := by
      intro q hq
      obtain ⟨_, x, _, _, _, _, hx, _⟩ := i4 q hq
      exact ⟨x, hx⟩
    have htime : ∀ t', Dict.get? state "time" = some (.time t') → "time" ∉ Dict.keys t := by
      intro t' ht' hmem
      obtain ⟨x, hx⟩ := hin _ hmem
      rw [ht'] at hx; cases hx
    have hun : ∀ q, q ∉ Dict.keys t → Dict.get? (copyUntouched st' n) q = Dict.get? state q ∧
        Dict.get? st' q = Dict.get? state q := by
      intro q hq
      have h1 := (i3 q hq).1
      refine ⟨?_, h1⟩
      rw [c3 q (fun h => hq ((hn' q).1 h)), h1]
    refine ⟨?_, i1, ?_, ?_⟩
    · intro q
      rw [c1, i1, hn']
      constructor
      · rintro (h | h)
        · exact h
        · obtain ⟨x, hx⟩ := hin q h
          exact Dict.mem_keys_of_get? hx
      · exact Or.inl
    · intro t' ht'
      obtain ⟨h1, h2⟩ := hun _ (htime t' ht')
      rw [h1, h2]; exact ⟨ht', ht'⟩
    · intro q hq
      exact hun q (by rw [hk]; exact hq)

/-- C36, first call: a forward Euler step that leaves the caller's state alone, which
becomes the previous state. -/
theorem leapfrog_first_call {R : Registry} {prog : Prog σ} {lf lf' : LF} {s s' : σ} {state st' : State}
    {dt : Int} {diag : Dict DataArray} {new : State}
    (h : LF.call R prog lf s state dt = (lf', s', st', .ok (diag, new))) (hold : lf.old = none) :
    st' = state ∧ lf' = { lf with timestep := some dt, old := some state } ∧
    ∃ t, lfTendency R prog lf s state dt = some t ∧
      ∀ q ∈ Dict.keys t, ∃ x n, Dict.get? state q = some (.da x) ∧ Dict.get? new q = some (.da n) ∧
        n.attrs = x.attrs ∧ ∀ ix, n.at' ix = x.at' ix + seconds dt * tval t q ix := by
  obtain ⟨_, hlf, r, t, hr, rfl, _, ht, hk, hcase⟩ := lf_ok h
  rcases hcase with ⟨_, rfl, n, hn, rfl⟩ | ⟨old, n, ho, _⟩
  · refine ⟨rfl, hlf, t, ht, ?_⟩
    unfold stepEuler at hn
    obtain ⟨k1, k2⟩ := stepKeys_ok hn
    obtain ⟨c1, c2, c3⟩ := copyUntouched_spec st' n
    intro q hq
    obtain ⟨v, hv, hg⟩ := k2 q hq
    obtain ⟨x, hx, hv⟩ := Exc.bind_ok_iff.1 hv
    obtain ⟨w, hw, hv⟩ := Exc.bind_ok_iff.1 hv
    obtain ⟨a1, a2, a3⟩ := add_ok hv
    refine ⟨x, v, State.da_ok.1 hx, ?_, a1, ?_⟩
    · rw [c2 q (by rw [k1]; exact hq)]; exact hg
    · intro ix
      rw [a3, smul_at, tval_of_get (Dict.get_eq_ok.1 hw)]
  · rw [hold] at ho; cases ho

/-- C36, later calls: for every quantity with a tendency, with previous value `o` and
current value `x`, the new state is `o + 2 dt x'` displaced by `(α - 1)` times the filter
displacement, and the caller's state is displaced by `α` times it; the caller's filtered
state becomes the previous state. -/
theorem leapfrog_later_call {R : Registry} {prog : Prog σ} (hd : prog.Dicts) {lf lf' : LF} {s s' : σ}
    {state st' old : State} {dt : Int} {diag : Dict DataArray} {new : State}
    (h : LF.call R prog lf s state dt = (lf', s', st', .ok (diag, new))) (hold : lf.old = some old) :
    lf' = { lf with timestep := some dt, old := some st' } ∧
    ∃ t, lfTendency R prog lf s state dt = some t ∧
      ∀ q ∈ Dict.keys t, ∃ o x x' n, Dict.get? old q = some (.da o) ∧ Dict.get? state q = some (.da x) ∧
        Dict.get? st' q = some (.da x') ∧ Dict.get? new q = some (.da n) ∧
        x'.attrs = x.attrs ∧ x'.dims = x.dims ∧ n.attrs = o.attrs ∧
        ∀ ix,
          let y := o.at' ix + 2 * seconds dt * tval t q ix
          let δ := filterDisplacement lf.strength (o.at' ix) (x.at' ix) y
          x'.at' ix = x.at' ix + lf.alpha * δ ∧ n.at' ix = y + (lf.alpha - 1) * δ ∧
          (lf.alpha = 1 → n.at' ix = y) ∧
          (lf.alpha = 1 / 2 → o.at' ix + x'.at' ix + n.at' ix = o.at' ix + x.at' ix + y) := by
  obtain ⟨_, hlf, r, t, hr, rfl, _, ht, hk, hcase⟩ := lf_ok h
  rcases hcase with ⟨ho, _⟩ | ⟨old', n, ho, rfl, hn⟩
  · rw [hold] at ho; cases ho
  · rw [hold] at ho; cases ho
    refine ⟨hlf, t, ht, ?_⟩
    obtain ⟨i1, i2, i3, i4⟩ := stepLeapfrog_ok (by rw [hk]; exact hd _ _ _ _ hr) hn
    obtain ⟨c1, c2, c3⟩ := copyUntouched_spec st' n
    intro q hq
    obtain ⟨o, x, v, x', m, e1, e2, e3, e4, e5, e6⟩ := i4 q hq
    refine ⟨o, x, x', m, e1, e2, e4, ?_, e6.attrs_cur, e6.dims_cur, e6.attrs_new, ?_⟩
    · rw [c2 q ((i2 q).2 (Or.inr hq))]; exact e5
    · intro ix
      rw [tval_of_get e3]
      refine ⟨e6.cur ix, e6.new ix, ?_, ?_⟩
      · intro hα; rw [e6.new ix, hα]; ring
      · intro hα; rw [e6.new ix, e6.cur ix, hα]; ring

/-- A call that raises keeps the previous state (and the strength and alpha). -/
theorem leapfrog_failed_call {R : Registry} {prog : Prog σ} {lf lf' : LF} {s s' : σ} {state st' : State}
    {dt : Int} {e : Err} (h : LF.call R prog lf s state dt = (lf', s', st', .error e)) :
    lf'.old = lf.old ∧ lf'.strength = lf.strength ∧ lf'.alpha = lf.alpha := by
  unfold LF.call at h
  split at h
  · simp only at h
    split at h
    · cases h; exact ⟨rfl, rfl, rfl⟩
    · split at h
      · cases h; exact ⟨rfl, rfl, rfl⟩
      · split at h
        · rename_i ho
          split at h
          · cases h; exact ⟨ho.symm ▸ rfl, rfl, rfl⟩
          · cases h
        · rename_i ho
          split at h
          · cases h; exact ⟨ho.symm ▸ rfl, rfl, rfl⟩
          · cases h
  · cases h; exact ⟨rfl, rfl, rfl⟩

theorem lf_timestep (R : Registry) (prog : Prog σ) (lf : LF) (s : σ) (state : State) (dt : Int) :
    (LF.call R prog lf s state dt).1.timestep =
      if lf.timestep = none ∨ lf.timestep = some dt then some dt else lf.timestep := by
  unfold LF.call
  split
  · simp only
    split
    · rfl
    · split
      · rfl
      · split
        · split <;> rfl
        · split <;> rfl
  · rfl

theorem lfRun_timestep (R : Registry) (prog : Prog σ) (dt0 : Int) (calls : List (State × Int)) :
    ∀ (lf : LF) (s : σ), lf.timestep = some dt0 → (lfRun R prog lf s calls).1.timestep = some dt0 := by
  induction calls with
  | nil => intro lf s h; exact h
  | cons sd calls ih =>
    obtain ⟨state, dt⟩ := sd
    intro lf s h
    rw [lfRun]
    apply ih
    rw [lf_timestep]
    split
    · rename_i hts
      rw [h] at hts
      rcases hts with hts | hts
      · cases hts
      · exact hts.symm
    · exact h

/-- C34 (Leapfrog): after any history of calls that began with timestep `dt0`, a call
with another timestep raises ValueError and leaves the stepper, the components and the
caller's state as they were. -/
theorem lf_rejects_changed_timestep (R : Registry) (prog : Prog σ) (strength alpha : Rat) (s : σ) (state0 : State)
    (dt0 : Int) (calls : List (State × Int)) (state : State) (dt : Int) (hdt : dt ≠ dt0) :
    let h := lfRun R prog { strength := strength, alpha := alpha } s ((state0, dt0) :: calls)
    LF.call R prog h.1 h.2 state dt = (h.1, h.2, state, .error .valueError) := by
  intro h
  have ht : h.1.timestep = some dt0 := by
    show (lfRun R prog _ _ (_ :: _)).1.timestep = _
    rw [lfRun]
    apply lfRun_timestep
    rw [lf_timestep, if_pos (Or.inl rfl)]
  unfold LF.call
  rw [if_neg]
  rw [ht]
  rintro (h | h)
  · cases h
  · injection h with h; exact hdt h.symm

/-! ## Examples -/

theorem Demo.abProg_dicts : Demo.abProg.Dicts := by
  intro s state dt r h
  unfold Demo.abProg at h
  injection h with h
  subst h
  exact List.nodup_singleton _

/-- After a call with `h` = 1 km. -/
def Demo.lf2 : LF :=
  ⟨1 / 10, 7 / 10, some Demo.dt, some [("h", .da { Demo.prof with arr := ⟨[3], fun _ => 1⟩ })]⟩

/-- C31, C36: a second call with alpha 0.7 and strength 0.1: previous value 1 km,
current value 2 km, tendency 8 km/s at the second level. -/
example : ∃ lf' s' st' diag new,
    LF.call Demo.reg Demo.abProg Demo.lf2 2 Demo.state Demo.dt =
      (lf', s', st', .ok (diag, new)) ∧
    State.val st' "h" (fun _ => 1) = 2 + 7 / 10 * (1 / 10 * (1 - 4 + 17) / 2) ∧
    State.val new "h" (fun _ => 1) = 17 - 3 / 10 * (1 / 10 * (1 - 4 + 17) / 2) := by
  have h : (match LF.call Demo.reg Demo.abProg Demo.lf2 2 Demo.state Demo.dt with
      | (_, _, st', r) => Exc.test r fun p =>
        decide (State.val st' "h" (fun _ => 1) = 2 + 7 / 10 * (1 / 10 * (1 - 4 + 17) / 2)) &&
        decide (State.val p.2 "h" (fun _ => 1) = 17 - 3 / 10 * (1 / 10 * (1 - 4 + 17) / 2))) = true := by
    decide +kernel
  revert h
  generalize LF.call Demo.reg Demo.abProg _ 2 Demo.state Demo.dt = c
  intro h
  obtain ⟨a, b, st', r⟩ := c
  obtain ⟨⟨diag, new⟩, hr, hp⟩ := Exc.test_ok h
  rw [Bool.and_eq_true] at hp
  exact ⟨a, b, st', diag, new, by rw [hr], of_decide_eq_true hp.1, of_decide_eq_true hp.2⟩

/-- C34, C36: a first call succeeds and sets the timestep. -/
example : (lfRun Demo.reg Demo.abProg {} 0 [(Demo.state, Demo.dt)]).1.timestep = some Demo.dt ∧
    (lfRun Demo.reg Demo.abProg {} 0 [(Demo.state, Demo.dt)]).1.old.isSome := by
  decide +kernel

/-- A call that raises can leave the caller's state filtered for some quantities. -/
theorem leapfrog_partial_filter :
    ∃ (prog : Prog Nat) (old : State) (e : Err),
      (LF.call Demo.reg prog { timestep := some Demo.dt, old := some old } 1 Demo.state Demo.dt).2.2.2 = .error e ∧
      State.val (LF.call Demo.reg prog { timestep := some Demo.dt, old := some old } 1 Demo.state Demo.dt).2.2.1
        "h" (fun _ => 1) ≠ State.val Demo.state "h" (fun _ => 1) := by
  refine ⟨fun n _ _ => (n, .ok ([("h", Demo.hTend 1000), ("T", { Demo.temp with attrs := [("units", "K day^-1")] })], [])),
    [("h", .da { Demo.prof with arr := ⟨[3], fun _ => 1⟩ })], .keyError, Exc.failsWith_error ?_, ?_⟩
  · decide +kernel
  · decide +kernel

end Verif
