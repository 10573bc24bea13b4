import Verif.Props.Leapfrog
import Mathlib.Analysis.Convex.Function
import Mathlib.Tactic.Positivity
/-! # SSPRungeKutta: properties C31, C37, C38 -/

namespace Verif

variable {σ : Type}

theorem nodup_copyUntouched : ∀ (old new : State), (Dict.keys new).Nodup →
    (Dict.keys (copyUntouched old new)).Nodup := by
  intro old
  induction old with
  | nil => intro new h; exact h
  | cons kv old ih =>
    intro new h
    unfold copyUntouched
    split
    · exact ih new h
    · exact ih _ (Dict.nodup_keys_set h _ _)

theorem tval_of_not_mem {t : Dict DataArray} {q : String} (h : q ∉ Dict.keys t) (ix : String → Nat) :
    tval t q ix = 0 := by
  unfold tval
  rw [(Dict.get?_eq_none_iff _ _).2 h]

theorem State.val_congr {s t : State} {q : String} (h : Dict.get? s q = Dict.get? t q) (ix : String → Nat) :
    State.val s q ix = State.val t q ix := by
  unfold State.val; rw [h]

/-- What a forward Euler step does. -/
structure EulerSpec (R : Registry) (prog : Prog σ) (s : σ) (state : State) (dt : Int) (s' : σ)
    (diag : Dict DataArray) (t : Dict DataArray) (new : State) : Prop where
  tend : ∃ r, prog s state dt = (s', .ok r) ∧ convertTendencies R state r.1 = .ok t ∧ diag = r.2
  keys : ∀ q, q ∈ Dict.keys new ↔ q ∈ Dict.keys state
  nodup : (Dict.keys new).Nodup
  time : State.TimeOk state → Dict.get? new "time" = Dict.get? state "time"
  untouched : ∀ q, q ∉ Dict.keys t → Dict.get? new q = Dict.get? state q
  stepped : ∀ q ∈ Dict.keys t, ∃ x n, Dict.get? state q = some (.da x) ∧ Dict.get? new q = some (.da n) ∧
    n.attrs = x.attrs ∧ ∀ d ∈ x.dims, d ∈ n.dims
  value : ∀ q ix, State.val new q ix = State.val state q ix + seconds dt * tval t q ix

theorem eulerCall_ok {R : Registry} {prog : Prog σ} (hd : prog.Dicts) {ab ab' : AB} {s s' : σ} {state : State}
    {dt : Int} {diag : Dict DataArray} {new : State} (hord : ab.order = 1)
    (h : eulerCall R prog ab s state dt = (ab', s', .ok (diag, new))) :
    ab'.order = 1 ∧ ∃ t, EulerSpec R prog s state dt s' diag t new := by
  unfold eulerCall at h
  simp only [Prod.mk.injEq] at h
  obtain ⟨h1, h2, h3⟩ := h
  obtain ⟨o, ho, h3⟩ := Exc.bind_ok_iff.1 h3
  simp only [Except.ok.injEq, Prod.mk.injEq] at h3
  obtain ⟨h3, h4⟩ := h3
  cases ab_outcome R prog ab s state dt with
  | rejected hts hc ht => rw [hc] at ho; cases ho
  | early e hts hc ht => rw [hc] at ho; cases ho
  | late t e hts ht hp hc => rw [hc] at ho; cases ho
  | done t r n hts hr hconv ht hp hc =>
    rw [hc] at ho h1 h2
    simp only [Except.ok.injEq] at ho
    subst ho
    simp only at h3 h4
    refine ⟨?_, t, ?_⟩
    · rw [← h1]; simp only; split <;> exact hord
    obtain ⟨m, hm, m1, m4, hk, hq⟩ := performStep_spec hp
    have hm1 : m = 1 := by
      rw [hm, hord, List.length_append, List.length_cons, List.length_nil]; omega
    rw [hm1] at hk
    have hk : Dict.keys n = Dict.keys t := by
      rw [hk, if_pos rfl, List.getLast?_append]; rfl
    obtain ⟨c1, c2, c3⟩ := copyUntouched_spec state n
    obtain ⟨d1, d2, d3⟩ := copyUntouched_spec state (copyUntouched state n)
    rw [h4] at d1 d2 d3
    have hget : ∀ q, Dict.get? new q = Dict.get? (copyUntouched state n) q := by
      intro q
      by_cases hmem : q ∈ Dict.keys (copyUntouched state n)
      · exact d2 q hmem
      · rw [d3 q hmem, (Dict.get?_eq_none_iff _ _).2 hmem, (Dict.get?_eq_none_iff _ _).2]
        intro hc
        exact hmem ((c1 q).2 (Or.inl hc))
    have hsub : ∀ q, q ∈ Dict.keys n → q ∈ Dict.keys state := by
      intro q hqm
      obtain ⟨x, _, hx, _⟩ := hq q hqm
      exact Dict.mem_keys_of_get? hx
    have hun : ∀ q, q ∉ Dict.keys t → Dict.get? new q = Dict.get? state q := by
      intro q hqt
      rw [hget, c3]
      rw [hk]; exact hqt
    refine ⟨⟨r, ?_, hconv, h3.symm⟩, ?_, ?_, ?_, hun, ?_, ?_⟩
    · rw [← h2, ← hr]
    · intro q
      rw [d1, c1]
      constructor
      · rintro (h | h | h)
        · exact h
        · exact h
        · exact hsub q h
      · exact Or.inl
    · rw [← h4]
      apply nodup_copyUntouched
      apply nodup_copyUntouched
      rw [hk, (convertTendencies_ok hconv).1]
      exact hd _ _ _ _ hr
    · intro hT
      apply hun
      rw [← hk]
      intro hmem
      obtain ⟨x, _, hx, _⟩ := hq _ hmem
      exact hT x hx
    · intro q hqt
      rw [← hk] at hqt
      obtain ⟨x, nn, hx, hn, ha, hdims, _⟩ := hq q hqt
      exact ⟨x, nn, hx, by rw [hget, c2 q hqt]; exact hn, ha, hdims⟩
    · intro q ix
      by_cases hqt : q ∈ Dict.keys t
      · rw [← hk] at hqt
        obtain ⟨x, nn, hx, hn, ha, hdims, _, hv⟩ := hq q hqt
        rw [State.val_of_da (by rw [hget, c2 q hqt]; exact hn), State.val_of_da hx, hv ix, hm1]
        unfold abFormula
        rw [List.reverse_append]
        simp [List.range_succ, abCoef]
      · rw [State.val_congr (hun q hqt), tval_of_not_mem hqt]
        ring

/-! ## Sums and multiples of states -/

theorem timeEntry_get (s : State) : Dict.get? (timeEntry s) "time" = Dict.get? s "time" := by
  unfold timeEntry
  cases h : Dict.get? s "time" with
  | none => rfl
  | some v => rfl

theorem timeEntry_ne (s : State) {q : String} (h : q ≠ "time") : Dict.get? (timeEntry s) q = none := by
  unfold timeEntry
  cases Dict.get? s "time" with
  | none => rfl
  | some v => simp only; rw [Dict.get?_cons, if_neg (Ne.symm h)]; rfl

theorem timeEntry_nodup (s : State) : (Dict.keys (timeEntry s)).Nodup := by
  unfold timeEntry
  cases Dict.get? s "time" with
  | none => exact List.nodup_nil
  | some v => exact List.nodup_singleton _

theorem addStatesLoop_ok {s2 : State} : ∀ {s1 out0 out : State}, (Dict.keys s1).Nodup → (Dict.keys out0).Nodup →
    addStatesLoop s2 s1 out0 = .ok out →
    (Dict.keys out).Nodup ∧
    (∀ q, q = "time" ∨ q ∉ Dict.keys s1 → Dict.get? out q = Dict.get? out0 q) ∧
    (∀ q ∈ Dict.keys s1, q ≠ "time" → ∃ a b r, Dict.get? s1 q = some (.da a) ∧ Dict.get? s2 q = some (.da b) ∧
      Dict.get? out q = some (.da r) ∧ r.attrs = a.attrs ∧
      r.dims = a.dims ++ b.dims.filter (fun d => d ∉ a.dims) ∧ ∀ ix, r.at' ix = a.at' ix + b.at' ix) := by
  intro s1
  induction s1 with
  | nil =>
    intro out0 out _ hnd h
    unfold addStatesLoop at h
    cases h
    exact ⟨hnd, fun q _ => rfl, fun q hq => by simp [Dict.keys] at hq⟩
  | cons kv s1 ih =>
    obtain ⟨k, v⟩ := kv
    intro out0 out hnd hnd0 h
    have hkk : Dict.keys ((k, v) :: s1) = k :: Dict.keys s1 := rfl
    rw [hkk, List.nodup_cons] at hnd
    unfold addStatesLoop at h
    by_cases hkt : k = "time"
    · rw [if_pos hkt] at h
      obtain ⟨i1, i2, i3⟩ := ih hnd.2 hnd0 h
      refine ⟨i1, ?_, ?_⟩
      · intro q hq
        apply i2
        rcases hq with hq | hq
        · exact Or.inl hq
        · exact Or.inr (fun hm => hq (by rw [hkk]; exact List.mem_cons_of_mem _ hm))
      · intro q hq hqt
        rw [hkk, List.mem_cons] at hq
        rcases hq with rfl | hq
        · exact absurd hkt hqt
        · rw [Dict.get?_cons, if_neg (fun (h : k = q) => hqt (h.symm.trans hkt))]
          exact i3 q hq hqt
    · rw [if_neg hkt] at h
      cases v with
      | time t => cases h
      | da a =>
        simp only at h
        obtain ⟨b, hb, h⟩ := Exc.bind_ok_iff.1 h
        obtain ⟨r, hr, h⟩ := Exc.bind_ok_iff.1 h
        obtain ⟨i1, i2, i3⟩ := ih hnd.2 (Dict.nodup_keys_set hnd0 _ _) h
        obtain ⟨a1, a2, a3⟩ := add_ok hr
        refine ⟨i1, ?_, ?_⟩
        · intro q hq
          have hqk : k ≠ q := by
            rintro rfl
            rcases hq with hq | hq
            · exact hkt hq
            · exact hq (by rw [hkk]; exact List.mem_cons_self)
          rw [i2, Dict.get?_set_ne _ _ hqk]
          rcases hq with hq | hq
          · exact Or.inl hq
          · exact Or.inr (fun hm => hq (by rw [hkk]; exact List.mem_cons_of_mem _ hm))
        · intro q hq hqt
          by_cases hqk : k = q
          · subst hqk
            refine ⟨a, b, { r with attrs := a.attrs }, by rw [Dict.get?_cons, if_pos rfl],
              State.da_ok.1 hb, ?_, rfl, a2, a3⟩
            rw [i2 k (Or.inr hnd.1), Dict.get?_set_self]
          · rw [hkk, List.mem_cons] at hq
            rcases hq with rfl | hq
            · exact absurd rfl hqk
            · rw [Dict.get?_cons, if_neg hqk]
              exact i3 q hq hqt

/-- `add` adds the values of every quantity of the first state and keeps its time. -/
theorem addStates_ok {s1 s2 out : State} (hnd : (Dict.keys s1).Nodup) (h : addStates s1 s2 = .ok out) :
    (Dict.keys out).Nodup ∧ Dict.get? out "time" = Dict.get? s1 "time" ∧
    (∀ q, q ∈ Dict.keys out ↔ q ∈ Dict.keys s1) ∧
    (∀ q ∈ Dict.keys s1, q ≠ "time" → ∃ a b r, Dict.get? s1 q = some (.da a) ∧ Dict.get? s2 q = some (.da b) ∧
      Dict.get? out q = some (.da r) ∧ r.attrs = a.attrs ∧
      r.dims = a.dims ++ b.dims.filter (fun d => d ∉ a.dims) ∧ ∀ ix, r.at' ix = a.at' ix + b.at' ix) := by
  obtain ⟨h1, h2, h3⟩ := addStatesLoop_ok hnd (timeEntry_nodup s1) h
  have htime : Dict.get? out "time" = Dict.get? s1 "time" := by
    rw [h2 _ (Or.inl rfl), timeEntry_get]
  refine ⟨h1, htime, ?_, h3⟩
  intro q
  by_cases hqt : q = "time"
  · subst hqt
    rw [← Dict.get?_isSome_iff, htime, Dict.get?_isSome_iff]
  · constructor
    · intro hq
      by_contra hn
      have := h2 q (Or.inr hn)
      rw [timeEntry_ne _ hqt] at this
      exact (Dict.get?_eq_none_iff _ _).1 this hq
    · intro hq
      obtain ⟨_, _, r, _, _, hr, _⟩ := h3 q hq hqt
      exact Dict.mem_keys_of_get? hr

theorem scaleStateLoop_ok {c : Rat} : ∀ {s1 out0 out : State}, (Dict.keys s1).Nodup → (Dict.keys out0).Nodup →
    scaleStateLoop c s1 out0 = .ok out →
    (Dict.keys out).Nodup ∧
    (∀ q, q = "time" ∨ q ∉ Dict.keys s1 → Dict.get? out q = Dict.get? out0 q) ∧
    (∀ q ∈ Dict.keys s1, q ≠ "time" → ∃ a r, Dict.get? s1 q = some (.da a) ∧
      Dict.get? out q = some (.da r) ∧ r.attrs = a.attrs ∧ r.dims = a.dims ∧ ∀ ix, r.at' ix = c * a.at' ix) := by
  intro s1
  induction s1 with
  | nil =>
    intro out0 out _ hnd h
    unfold scaleStateLoop at h
    cases h
    exact ⟨hnd, fun q _ => rfl, fun q hq => by simp [Dict.keys] at hq⟩
  | cons kv s1 ih =>
    obtain ⟨k, v⟩ := kv
    intro out0 out hnd hnd0 h
    have hkk : Dict.keys ((k, v) :: s1) = k :: Dict.keys s1 := rfl
    rw [hkk, List.nodup_cons] at hnd
    unfold scaleStateLoop at h
    by_cases hkt : k = "time"
    · rw [if_pos hkt] at h
      obtain ⟨i1, i2, i3⟩ := ih hnd.2 hnd0 h
      refine ⟨i1, ?_, ?_⟩
      · intro q hq
        apply i2
        rcases hq with hq | hq
        · exact Or.inl hq
        · exact Or.inr (fun hm => hq (by rw [hkk]; exact List.mem_cons_of_mem _ hm))
      · intro q hq hqt
        rw [hkk, List.mem_cons] at hq
        rcases hq with rfl | hq
        · exact absurd hkt hqt
        · rw [Dict.get?_cons, if_neg (fun (h : k = q) => hqt (h.symm.trans hkt))]
          exact i3 q hq hqt
    · rw [if_neg hkt] at h
      cases v with
      | time t => cases h
      | da a =>
        simp only at h
        obtain ⟨i1, i2, i3⟩ := ih hnd.2 (Dict.nodup_keys_set hnd0 _ _) h
        refine ⟨i1, ?_, ?_⟩
        · intro q hq
          have hqk : k ≠ q := by
            rintro rfl
            rcases hq with hq | hq
            · exact hkt hq
            · exact hq (by rw [hkk]; exact List.mem_cons_self)
          rw [i2, Dict.get?_set_ne _ _ hqk]
          rcases hq with hq | hq
          · exact Or.inl hq
          · exact Or.inr (fun hm => hq (by rw [hkk]; exact List.mem_cons_of_mem _ hm))
        · intro q hq hqt
          by_cases hqk : k = q
          · subst hqk
            refine ⟨a, { a.smul c with attrs := a.attrs }, by rw [Dict.get?_cons, if_pos rfl], ?_, rfl, rfl,
              fun ix => rfl⟩
            rw [i2 k (Or.inr hnd.1), Dict.get?_set_self]
          · rw [hkk, List.mem_cons] at hq
            rcases hq with rfl | hq
            · exact absurd rfl hqk
            · rw [Dict.get?_cons, if_neg hqk]
              exact i3 q hq hqt

/-- `multiply` scales the values of every quantity and keeps the time. -/
theorem scaleState_ok {c : Rat} {s1 out : State} (hnd : (Dict.keys s1).Nodup) (h : scaleState c s1 = .ok out) :
    (Dict.keys out).Nodup ∧ Dict.get? out "time" = Dict.get? s1 "time" ∧
    (∀ q, q ∈ Dict.keys out ↔ q ∈ Dict.keys s1) ∧
    (∀ q ∈ Dict.keys s1, q ≠ "time" → ∃ a r, Dict.get? s1 q = some (.da a) ∧
      Dict.get? out q = some (.da r) ∧ r.attrs = a.attrs ∧ r.dims = a.dims ∧ ∀ ix, r.at' ix = c * a.at' ix) := by
  obtain ⟨h1, h2, h3⟩ := scaleStateLoop_ok hnd (timeEntry_nodup s1) h
  have htime : Dict.get? out "time" = Dict.get? s1 "time" := by
    rw [h2 _ (Or.inl rfl), timeEntry_get]
  refine ⟨h1, htime, ?_, h3⟩
  intro q
  by_cases hqt : q = "time"
  · subst hqt
    rw [← Dict.get?_isSome_iff, htime, Dict.get?_isSome_iff]
  · constructor
    · intro hq
      by_contra hn
      have := h2 q (Or.inr hn)
      rw [timeEntry_ne _ hqt] at this
      exact (Dict.get?_eq_none_iff _ _).1 this hq
    · intro hq
      obtain ⟨_, r, _, hr, _⟩ := h3 q hq hqt
      exact Dict.mem_keys_of_get? hr

theorem val_time {s : State} (hT : s.TimeOk) (ix : String → Nat) : State.val s "time" ix = 0 := by
  unfold State.val
  cases h : Dict.get? s "time" with
  | none => rfl
  | some v =>
    cases v with
    | da a => exact absurd h (hT a)
    | time t => rfl

theorem val_of_not_mem {s : State} {q : String} (h : q ∉ Dict.keys s) (ix : String → Nat) : State.val s q ix = 0 := by
  unfold State.val
  rw [(Dict.get?_eq_none_iff _ _).2 h]

theorem TimeOk.congr {s t : State} (h : Dict.get? s "time" = Dict.get? t "time") (ht : t.TimeOk) : s.TimeOk := by
  intro a
  rw [h]; exact ht a

theorem addStates_val {s1 s2 out : State} (hnd : (Dict.keys s1).Nodup) (hT : s1.TimeOk) (hT2 : s2.TimeOk)
    (hk : ∀ q, q ∈ Dict.keys s2 ↔ q ∈ Dict.keys s1) (h : addStates s1 s2 = .ok out) (q : String) (ix : String → Nat) :
    State.val out q ix = State.val s1 q ix + State.val s2 q ix := by
  obtain ⟨_, ht, hkeys, hq⟩ := addStates_ok hnd h
  by_cases hqt : q = "time"
  · subst hqt
    rw [val_time (TimeOk.congr ht hT), val_time hT, val_time hT2]; ring
  · by_cases hm : q ∈ Dict.keys s1
    · obtain ⟨a, b, r, ha, hb, hr, _, _, hv⟩ := hq q hm hqt
      rw [State.val_of_da ha, State.val_of_da hb, State.val_of_da hr, hv]
    · rw [val_of_not_mem hm, val_of_not_mem (fun h => hm ((hk q).1 h)), val_of_not_mem (fun h => hm ((hkeys q).1 h))]
      ring

theorem scaleState_val {c : Rat} {s1 out : State} (hnd : (Dict.keys s1).Nodup) (hT : s1.TimeOk)
    (h : scaleState c s1 = .ok out) (q : String) (ix : String → Nat) :
    State.val out q ix = c * State.val s1 q ix := by
  obtain ⟨_, ht, hkeys, hq⟩ := scaleState_ok hnd h
  by_cases hqt : q = "time"
  · subst hqt
    rw [val_time (TimeOk.congr ht hT), val_time hT]; ring
  · by_cases hm : q ∈ Dict.keys s1
    · obtain ⟨a, r, ha, hr, _, _, hv⟩ := hq q hm hqt
      rw [State.val_of_da ha, State.val_of_da hr, hv]
    · rw [val_of_not_mem hm, val_of_not_mem (fun h => hm ((hkeys q).1 h))]
      ring

/-! ## One call -/

/-- `out` is a quantity of `state` unchanged: same attributes, dims and values (the
arithmetic of the stages makes a new array). -/
def SameQuantity (state out : State) (q : String) : Prop :=
  ∃ a r, Dict.get? state q = some (.da a) ∧ Dict.get? out q = some (.da r) ∧ r.attrs = a.attrs ∧
    r.dims = a.dims ∧ ∀ ix, r.at' ix = a.at' ix

theorem filter_self_dims (a : DataArray) : a.dims ++ a.dims.filter (fun d => d ∉ a.dims) = a.dims := by
  have : a.dims.filter (fun d => d ∉ a.dims) = [] := by
    rw [List.filter_eq_nil_iff]
    intro d hd
    simp [hd]
  rw [this, List.append_nil]

/-- The linear combination `c1 s1 + c2 s2` as the code computes it. -/
structure CombSpec (c1 c2 : Rat) (s1 s2 out : State) : Prop where
  keys : ∀ q, q ∈ Dict.keys out ↔ q ∈ Dict.keys s1
  nodup : (Dict.keys out).Nodup
  time : Dict.get? out "time" = Dict.get? s1 "time"
  value : ∀ q ix, State.val out q ix = c1 * State.val s1 q ix + c2 * State.val s2 q ix
  entry : ∀ q ∈ Dict.keys s1, q ≠ "time" → ∃ a b r, Dict.get? s1 q = some (.da a) ∧ Dict.get? s2 q = some (.da b) ∧
    Dict.get? out q = some (.da r) ∧ r.attrs = a.attrs ∧ r.dims = a.dims ++ b.dims.filter (fun d => d ∉ a.dims) ∧
    ∀ ix, r.at' ix = c1 * a.at' ix + c2 * b.at' ix

/-- `add(multiply(c1, s1), multiply(c2, s2))` -/
theorem combine_scaled {c1 c2 : Rat} {s1 s2 out : State} (hnd : (Dict.keys s1).Nodup) (hnd2 : (Dict.keys s2).Nodup)
    (hT : s1.TimeOk) (hT2 : s2.TimeOk) (hk : ∀ q, q ∈ Dict.keys s2 ↔ q ∈ Dict.keys s1)
    (h : (scaleState c1 s1 >>= fun x => scaleState c2 s2 >>= fun y => addStates x y) = .ok out) :
    CombSpec c1 c2 s1 s2 out := by
  obtain ⟨x, hx, h⟩ := Exc.bind_ok_iff.1 h
  obtain ⟨y, hy, h⟩ := Exc.bind_ok_iff.1 h
  obtain ⟨x1, x2, x3, x4⟩ := scaleState_ok hnd hx
  obtain ⟨y1, y2, y3, y4⟩ := scaleState_ok hnd2 hy
  obtain ⟨o1, o2, o3, o4⟩ := addStates_ok x1 h
  refine ⟨fun q => (o3 q).trans (x3 q), o1, o2.trans x2, ?_, ?_⟩
  · intro q ix
    rw [addStates_val x1 (TimeOk.congr x2 hT) (TimeOk.congr y2 hT2)
      (fun q => (y3 q).trans ((hk q).trans (x3 q).symm)) h, scaleState_val hnd hT hx, scaleState_val hnd2 hT2 hy]
  · intro q hq hqt
    obtain ⟨a, a', ha, ha', e1, e2, e3⟩ := x4 q hq hqt
    obtain ⟨b, b', hb, hb', f1, f2, f3⟩ := y4 q ((hk q).2 hq) hqt
    obtain ⟨a'', b'', r, ha'', hb'', hr, g1, g2, g3⟩ := o4 q ((x3 q).2 hq) hqt
    rw [ha'] at ha''; cases ha''
    rw [hb'] at hb''; cases hb''
    refine ⟨a, b, r, ha, hb, hr, g1.trans e1, ?_, ?_⟩
    · rw [g2, e2, f2]
    · intro ix; rw [g3, e3, f3]

/-- `multiply(1/2, add(s1, s2))` -/
theorem combine_half {s1 s2 out : State} (hnd : (Dict.keys s1).Nodup)
    (hT : s1.TimeOk) (hT2 : s2.TimeOk) (hk : ∀ q, q ∈ Dict.keys s2 ↔ q ∈ Dict.keys s1)
    {x : State} (hx : addStates s1 s2 = .ok x) (h : scaleState (1 / 2) x = .ok out) :
    CombSpec (1 / 2) (1 / 2) s1 s2 out := by
  obtain ⟨x1, x2, x3, x4⟩ := addStates_ok hnd hx
  obtain ⟨o1, o2, o3, o4⟩ := scaleState_ok x1 h
  refine ⟨fun q => (o3 q).trans (x3 q), o1, o2.trans x2, ?_, ?_⟩
  · intro q ix
    rw [scaleState_val x1 (TimeOk.congr x2 hT) h, addStates_val hnd hT hT2 hk hx]
    ring
  · intro q hq hqt
    obtain ⟨a, b, m, ha, hb, hm, e1, e2, e3⟩ := x4 q hq hqt
    obtain ⟨m', r, hm', hr, f1, f2, f3⟩ := o4 q ((x3 q).2 hq) hqt
    rw [hm] at hm'; cases hm'
    refine ⟨a, b, r, ha, hb, hr, f1.trans e1, f2.trans e2, ?_⟩
    intro ix; rw [f3, e3]; ring

theorem CombSpec.same {c1 c2 : Rat} {s1 s2 out : State} (h : CombSpec c1 c2 s1 s2 out) (hc : c1 + c2 = 1)
    {q : String} {a : DataArray} (hqt : q ≠ "time") (ha : Dict.get? s1 q = some (.da a))
    {b : DataArray} (hb : Dict.get? s2 q = some (.da b)) (hba : b.attrs = a.attrs ∧ b.dims = a.dims ∧ ∀ ix, b.at' ix = a.at' ix) :
    ∃ r, Dict.get? out q = some (.da r) ∧ r.attrs = a.attrs ∧ r.dims = a.dims ∧ ∀ ix, r.at' ix = a.at' ix := by
  obtain ⟨a', b', r, ha', hb', hr, e1, e2, e3⟩ := h.entry q (Dict.mem_keys_of_get? ha) hqt
  rw [ha] at ha'; cases ha'
  rw [hb] at hb'; cases hb'
  refine ⟨r, hr, e1, ?_, ?_⟩
  · rw [e2, hba.2.1, filter_self_dims]
  · intro ix
    rw [e3, hba.2.2 ix, ← add_mul, hc, one_mul]

/-- What a call of SSPRungeKutta does, as both number of stages share it. -/
structure SSPSpec (R : Registry) (prog : Prog σ) (B : Butcher) (s : σ) (state : State) (dt : Int) (s' : σ)
    (diag : Dict DataArray) (out : State) : Prop where
  step : IsRKStep R prog B s state dt s' diag out
  keys : ∀ q, q ∈ Dict.keys out ↔ q ∈ Dict.keys state
  nodup : (Dict.keys out).Nodup
  time : Dict.get? out "time" = Dict.get? state "time"
  untouched : ∀ q a, Dict.get? state q = some (.da a) →
    (∀ s1 y r, (prog s1 y dt).2 = .ok r → q ∉ Dict.keys r.1) → SameQuantity state out q

theorem EulerSpec.not_mem {R : Registry} {prog : Prog σ} {s s' : σ} {state new : State} {dt : Int}
    {diag t : Dict DataArray} (h : EulerSpec R prog s state dt s' diag t new) {q : String}
    (hq : ∀ s1 y r, (prog s1 y dt).2 = .ok r → q ∉ Dict.keys r.1) : Dict.get? new q = Dict.get? state q := by
  apply h.untouched
  obtain ⟨r, hr, hc, _⟩ := h.tend
  rw [(convertTendencies_ok hc).1]
  exact hq s state r (by rw [hr])

theorem EulerSpec.timeOk {R : Registry} {prog : Prog σ} {s s' : σ} {state new : State} {dt : Int}
    {diag t : Dict DataArray} (h : EulerSpec R prog s state dt s' diag t new) (hT : state.TimeOk) : new.TimeOk :=
  TimeOk.congr (h.time hT) hT

theorem EulerSpec.sameAttrs {R : Registry} {prog : Prog σ} {s s' : σ} {state new : State} {dt : Int}
    {diag t : Dict DataArray} (h : EulerSpec R prog s state dt s' diag t new) : SameAttrs state new := by
  intro q x hx
  by_cases hq : q ∈ Dict.keys t
  · obtain ⟨x', n, h1, h2, h3, _⟩ := h.stepped q hq
    rw [hx] at h1; cases h1
    exact ⟨n, h2, h3⟩
  · exact ⟨x, by rw [h.untouched q hq]; exact hx, rfl⟩

theorem CombSpec.sameAttrs {c1 c2 : Rat} {s1 s2 out : State} (h : CombSpec c1 c2 s1 s2 out) (hT : s1.TimeOk) :
    SameAttrs s1 out := by
  intro q x hx
  have hqt : q ≠ "time" := by rintro rfl; exact hT x hx
  obtain ⟨a, b, r, ha, _, hr, e, _⟩ := h.entry q (Dict.mem_keys_of_get? hx) hqt
  rw [hx] at ha; cases ha
  exact ⟨r, hr, e⟩

theorem sameAttrs_refl (s : State) : SameAttrs s s := fun _ x hx => ⟨x, hx, rfl⟩

theorem ssprk2_ok {R : Registry} {prog : Prog σ} (hd : prog.Dicts) {ab ab' : AB} {s s' : σ} {state : State}
    {dt : Int} {diag : Dict DataArray} {out : State} (hord : ab.order = 1) (hnd : (Dict.keys state).Nodup)
    (hT : state.TimeOk) (h : ssprk2 R prog ab s state dt = (ab', s', .ok (diag, out))) :
    SSPSpec R prog heun s state dt s' diag out := by
  unfold ssprk2 at h
  split at h
  · cases h
  · rename_i ab1 s1 diag1 state1 he1
    obtain ⟨ho1, t1, E1⟩ := eulerCall_ok hd hord he1
    split at h
    · cases h
    · rename_i ab2 s2 diag2 state2 he2
      obtain ⟨ho2, t2, E2⟩ := eulerCall_ok hd ho1 he2
      simp only [Prod.mk.injEq] at h
      obtain ⟨_, hs, h⟩ := h
      subst hs
      obtain ⟨x, hx, h⟩ := Exc.bind_ok_iff.1 h
      obtain ⟨out', hout, h⟩ := Exc.bind_ok_iff.1 h
      simp only [Except.ok.injEq, Prod.mk.injEq] at h
      obtain ⟨rfl, rfl⟩ := h
      have hT1 := E1.timeOk hT
      have hT2 := E2.timeOk hT1
      have C := combine_half hnd hT hT2 (fun q => (E2.keys q).trans (E1.keys q)) hx hout
      refine ⟨?_, C.keys, C.nodup, C.time, ?_⟩
      · obtain ⟨r1, p1, c1, d1⟩ := E1.tend
        obtain ⟨r2, p2, c2, d2⟩ := E2.tend
        refine ⟨fun i => if i = 0 then state else state1, fun i => if i = 0 then t1 else t2,
          fun i => if i = 0 then s else if i = 1 then s1 else s2, fun i => if i = 0 then diag1 else diag2,
          rfl, rfl, rfl, rfl, ?_, C.sameAttrs hT, ?_⟩
        · intro i hi
          have hi : i < 2 := hi
          rcases (by omega : i = 0 ∨ i = 1) with rfl | rfl
          · exact ⟨⟨r1, p1, c1, d1⟩, rfl, fun q => Iff.rfl, sameAttrs_refl _, fun q ix => by simp⟩
          · refine ⟨⟨r2, p2, c2, d2⟩, E1.time hT, E1.keys, E1.sameAttrs, fun q ix => ?_⟩
            show State.val state1 q ix = _
            rw [E1.value]
            simp [List.range_succ, heun]
        · intro q ix
          rw [C.value, E2.value, E1.value]
          simp only [heun, List.range_succ, List.range_zero, List.nil_append, List.map_cons, List.map_nil,
            List.sum_cons, List.sum_nil, List.cons_append]
          simp
          ring
      · intro q a ha hq
        have hqt : q ≠ "time" := by rintro rfl; exact hT a ha
        have h2 : Dict.get? state2 q = some (.da a) := by rw [E2.not_mem hq, E1.not_mem hq, ha]
        obtain ⟨r, hr, e⟩ := C.same (by norm_num) hqt ha h2 ⟨rfl, rfl, fun _ => rfl⟩
        exact ⟨a, r, ha, hr, e⟩

theorem ssprk3_ok {R : Registry} {prog : Prog σ} (hd : prog.Dicts) {ab ab' : AB} {s s' : σ} {state : State}
    {dt : Int} {diag : Dict DataArray} {out : State} (hord : ab.order = 1) (hnd : (Dict.keys state).Nodup)
    (hT : state.TimeOk) (h : ssprk3 R prog ab s state dt = (ab', s', .ok (diag, out))) :
    SSPSpec R prog shuOsher s state dt s' diag out := by
  unfold ssprk3 at h
  split at h
  · cases h
  · rename_i ab1 s1 diag1 state1 he1
    obtain ⟨ho1, t1, E1⟩ := eulerCall_ok hd hord he1
    split at h
    · cases h
    · rename_i ab2 s2 diag2 state15 he2
      obtain ⟨ho2, t2, E2⟩ := eulerCall_ok hd ho1 he2
      have hT1 := E1.timeOk hT
      have hT15 := E2.timeOk hT1
      split at h
      · cases h
      · rename_i state2 hc2
        have C2 := combine_scaled hnd E2.nodup hT hT15 (fun q => (E2.keys q).trans (E1.keys q)) hc2
        have hT2 : state2.TimeOk := TimeOk.congr C2.time hT
        split at h
        · cases h
        · rename_i ab3 s3 diag3 state25 he3
          obtain ⟨ho3, t3, E3⟩ := eulerCall_ok hd ho2 he3
          have hT25 := E3.timeOk hT2
          simp only [Prod.mk.injEq] at h
          obtain ⟨_, hs, h⟩ := h
          subst hs
          have hsp : ∃ o, (scaleState (1 / 3) state >>= fun x => scaleState (2 / 3) state25 >>= fun y =>
              addStates x y) = .ok o ∧ (diag1, o) = (diag, out) := by
            obtain ⟨x, hx, h⟩ := Exc.bind_ok_iff.1 h
            obtain ⟨y, hy, h⟩ := Exc.bind_ok_iff.1 h
            obtain ⟨o, ho, h⟩ := Exc.bind_ok_iff.1 h
            injection h with h
            refine ⟨o, ?_, h⟩
            rw [hx, Exc.ok_bind, hy, Exc.ok_bind, ho]
          obtain ⟨o, ho, heq⟩ := hsp
          simp only [Prod.mk.injEq] at heq
          obtain ⟨rfl, rfl⟩ := heq
          have hk3 : ∀ q, q ∈ Dict.keys state25 ↔ q ∈ Dict.keys state := fun q => (E3.keys q).trans (C2.keys q)
          have C := combine_scaled hnd E3.nodup hT hT25 hk3 ho
          refine ⟨?_, C.keys, C.nodup, C.time, ?_⟩
          · obtain ⟨r1, p1, c1, d1⟩ := E1.tend
            obtain ⟨r2, p2, c2, d2⟩ := E2.tend
            obtain ⟨r3, p3, c3, d3⟩ := E3.tend
            refine ⟨fun i => if i = 0 then state else if i = 1 then state1 else state2,
              fun i => if i = 0 then t1 else if i = 1 then t2 else t3,
              fun i => if i = 0 then s else if i = 1 then s1 else if i = 2 then s2 else s3,
              fun i => if i = 0 then diag1 else if i = 1 then diag2 else diag3,
              rfl, rfl, rfl, rfl, ?_, C.sameAttrs hT, ?_⟩
            · intro i hi
              have hi : i < 3 := hi
              rcases (by omega : i = 0 ∨ i = 1 ∨ i = 2) with rfl | rfl | rfl
              · exact ⟨⟨r1, p1, c1, d1⟩, rfl, fun q => Iff.rfl, sameAttrs_refl _, fun q ix => by simp⟩
              · refine ⟨⟨r2, p2, c2, d2⟩, E1.time hT, E1.keys, E1.sameAttrs, fun q ix => ?_⟩
                show State.val state1 q ix = _
                rw [E1.value]
                simp [List.range_succ, shuOsher]
              · refine ⟨⟨r3, p3, c3, d3⟩, C2.time, C2.keys, C2.sameAttrs hT, fun q ix => ?_⟩
                show State.val state2 q ix = _
                rw [C2.value, E2.value, E1.value]
                simp [List.range_succ, shuOsher]
                ring
            · intro q ix
              rw [C.value, E3.value, C2.value, E2.value, E1.value]
              simp only [shuOsher, List.range_succ, List.range_zero, List.nil_append, List.map_cons, List.map_nil,
                List.sum_cons, List.sum_nil, List.cons_append]
              simp
              ring
          · intro q a ha hq
            have hqt : q ≠ "time" := by rintro rfl; exact hT a ha
            have h15 : Dict.get? state15 q = some (.da a) := by rw [E2.not_mem hq, E1.not_mem hq, ha]
            obtain ⟨b, hb, e⟩ := C2.same (by norm_num) hqt ha h15 ⟨rfl, rfl, fun _ => rfl⟩
            have h25 : Dict.get? state25 q = some (.da b) := by rw [E3.not_mem hq, hb]
            obtain ⟨r, hr, e⟩ := C.same (by norm_num) hqt ha h25 e
            exact ⟨a, r, ha, hr, e⟩

/-- C37: a call of SSPRungeKutta is the Runge-Kutta step of its components with Heun's
or Shu and Osher's tableau. -/
theorem ssprk_is_butcher {R : Registry} {prog : Prog σ} (hd : prog.Dicts) {three : Bool} {ab ab' : AB} {s s' : σ}
    {state : State} {dt : Int} {diag : Dict DataArray} {out : State} (hord : ab.order = 1)
    (hnd : (Dict.keys state).Nodup) (hT : state.TimeOk)
    (h : ssprkCall R prog three ab s state dt = (ab', s', .ok (diag, out))) :
    IsRKStep R prog (if three then shuOsher else heun) s state dt s' diag out := by
  unfold ssprkCall at h
  cases three with
  | true => exact (ssprk3_ok hd hord hnd hT h).step
  | false => exact (ssprk2_ok hd hord hnd hT h).step

/-- C31 (SSPRungeKutta): same keys, same time, and quantities that never get a tendency
keep their attributes, dims and values. -/
theorem ssprk_untouched {R : Registry} {prog : Prog σ} (hd : prog.Dicts) {three : Bool} {ab ab' : AB} {s s' : σ}
    {state : State} {dt : Int} {diag : Dict DataArray} {out : State} (hord : ab.order = 1)
    (hnd : (Dict.keys state).Nodup) (hT : state.TimeOk)
    (h : ssprkCall R prog three ab s state dt = (ab', s', .ok (diag, out))) :
    (∀ q, q ∈ Dict.keys out ↔ q ∈ Dict.keys state) ∧ Dict.get? out "time" = Dict.get? state "time" ∧
    ∀ q a, Dict.get? state q = some (.da a) →
      (∀ s1 y r, (prog s1 y dt).2 = .ok r → q ∉ Dict.keys r.1) → SameQuantity state out q := by
  unfold ssprkCall at h
  cases three with
  | true => have := ssprk3_ok hd hord hnd hT h; exact ⟨this.keys, this.time, this.untouched⟩
  | false => have := ssprk2_ok hd hord hnd hT h; exact ⟨this.keys, this.time, this.untouched⟩

/-! ## Linear tendencies -/

/-- C37: for components whose tendencies are a linear function `L` of the values of the
state, a call multiplies the values by the Taylor polynomial of `exp (dt L)` of degree 2
or 3. -/
theorem ssprk_linear_amplification {R : Registry} {prog : Prog σ} (hd : prog.Dicts) {three : Bool} {ab ab' : AB}
    {s s' : σ} {state : State} {dt : Int} {diag : Dict DataArray} {out : State} (hord : ab.order = 1)
    (hnd : (Dict.keys state).Nodup) (hT : state.TimeOk)
    (h : ssprkCall R prog three ab s state dt = (ab', s', .ok (diag, out)))
    (L : Values →ₗ[ℚ] Values)
    (hL : ∀ s y r t, (prog s y dt).2 = .ok r → convertTendencies R y r.1 = .ok t → tval t = L (State.val y)) :
    State.val out = State.val state + seconds dt • L (State.val state) +
      (seconds dt ^ 2 / 2) • L (L (State.val state)) +
      (if three then (seconds dt ^ 3 / 6) • L (L (L (State.val state))) else 0) := by
  obtain ⟨Y, K, S, D, hY0, hS0, hSn, hD, hst, _, hout⟩ := ssprk_is_butcher hd hord hnd hT h
  have hK : ∀ i < (if three then shuOsher else heun).stages, tval (K i) = L (State.val (Y i)) := by
    intro i hi
    obtain ⟨⟨r, hr, hc, _⟩, _⟩ := hst i hi
    exact hL _ _ r _ (by rw [hr]) hc
  cases three with
  | false =>
    have k0 := hK 0 (by show 0 < 2; omega)
    have k1 := hK 1 (by show 1 < 2; omega)
    have y1 : State.val (Y 1) = State.val state + seconds dt • tval (K 0) := by
      funext q ix
      have := (hst 1 (by show 1 < 2; omega)).2.2.2.2 q ix
      rw [this]
      simp [List.range_succ, heun]
    have hfin : State.val out = State.val state + (seconds dt / 2) • tval (K 0) + (seconds dt / 2) • tval (K 1) := by
      funext q ix
      rw [hout q ix]
      simp [List.range_succ, heun]
      ring
    rw [hY0] at k0
    rw [hfin, k1, y1, k0]
    simp only [map_add, map_smul]
    funext q ix
    simp only [Pi.add_apply, Pi.smul_apply, smul_eq_mul, Pi.zero_apply, Bool.false_eq_true, if_false]
    ring
  | true =>
    have k0 := hK 0 (by show 0 < 3; omega)
    have k1 := hK 1 (by show 1 < 3; omega)
    have k2 := hK 2 (by show 2 < 3; omega)
    have y1 : State.val (Y 1) = State.val state + seconds dt • tval (K 0) := by
      funext q ix
      have := (hst 1 (by show 1 < 3; omega)).2.2.2.2 q ix
      rw [this]
      simp [List.range_succ, shuOsher]
    have y2 : State.val (Y 2) = State.val state + (seconds dt / 4) • tval (K 0) + (seconds dt / 4) • tval (K 1) := by
      funext q ix
      have := (hst 2 (by show 2 < 3; omega)).2.2.2.2 q ix
      rw [this]
      simp [List.range_succ, shuOsher]
      ring
    have hfin : State.val out = State.val state + (seconds dt / 6) • tval (K 0) + (seconds dt / 6) • tval (K 1) +
        (2 * seconds dt / 3) • tval (K 2) := by
      funext q ix
      rw [hout q ix]
      simp [List.range_succ, shuOsher]
      ring
    rw [hY0] at k0
    rw [hfin, k2, y2, k1, y1, k0]
    simp only [map_add, map_smul]
    funext q ix
    simp only [Pi.add_apply, Pi.smul_apply, smul_eq_mul, if_true]
    ring

/-! ## C38 -/

/-- C38: a convex set of values that forward Euler steps of the components with timestep
`dt` do not leave is not left by SSPRungeKutta. -/
theorem ssprk_preserves_convex {R : Registry} {prog : Prog σ} (hd : prog.Dicts) {three : Bool} {ab ab' : AB}
    {s s' : σ} {state : State} {dt : Int} {diag : Dict DataArray} {out : State} (hord : ab.order = 1)
    (hnd : (Dict.keys state).Nodup) (hT : state.TimeOk)
    (h : ssprkCall R prog three ab s state dt = (ab', s', .ok (diag, out)))
    (C : Set Values) (hC : Convex ℚ C)
    (hE : ∀ s y r t, (prog s y dt).2 = .ok r → convertTendencies R y r.1 = .ok t → State.val y ∈ C →
      State.val y + seconds dt • tval t ∈ C)
    (hin : State.val state ∈ C) : State.val out ∈ C := by
  obtain ⟨Y, K, S, D, hY0, hS0, hSn, hD, hst, _, hout⟩ := ssprk_is_butcher hd hord hnd hT h
  have hK : ∀ i < (if three then shuOsher else heun).stages, State.val (Y i) ∈ C →
      State.val (Y i) + seconds dt • tval (K i) ∈ C := by
    intro i hi hy
    obtain ⟨⟨r, hr, hc, _⟩, _⟩ := hst i hi
    exact hE _ _ r _ (by rw [hr]) hc hy
  cases three with
  | false =>
    have y1 : State.val (Y 1) = State.val state + seconds dt • tval (K 0) := by
      funext q ix
      rw [(hst 1 (by show 1 < 2; omega)).2.2.2.2 q ix]
      simp [List.range_succ, heun]
    have e0 := hK 0 (by show 0 < 2; omega) (by rw [hY0]; exact hin)
    rw [hY0, ← y1] at e0
    have e1 := hK 1 (by show 1 < 2; omega) e0
    have hfin : State.val out = (1 / 2 : ℚ) • State.val state +
        (1 / 2 : ℚ) • (State.val (Y 1) + seconds dt • tval (K 1)) := by
      funext q ix
      rw [hout q ix, y1]
      simp [List.range_succ, heun]
      ring
    rw [hfin]
    exact hC hin e1 (by norm_num) (by norm_num) (by norm_num)
  | true =>
    have y1 : State.val (Y 1) = State.val state + seconds dt • tval (K 0) := by
      funext q ix
      rw [(hst 1 (by show 1 < 3; omega)).2.2.2.2 q ix]
      simp [List.range_succ, shuOsher]
    have e0 := hK 0 (by show 0 < 3; omega) (by rw [hY0]; exact hin)
    rw [hY0, ← y1] at e0
    have e1 := hK 1 (by show 1 < 3; omega) e0
    have y2 : State.val (Y 2) = (3 / 4 : ℚ) • State.val state +
        (1 / 4 : ℚ) • (State.val (Y 1) + seconds dt • tval (K 1)) := by
      funext q ix
      rw [(hst 2 (by show 2 < 3; omega)).2.2.2.2 q ix, y1]
      simp [List.range_succ, shuOsher]
      ring
    have m2 : State.val (Y 2) ∈ C := by
      rw [y2]; exact hC hin e1 (by norm_num) (by norm_num) (by norm_num)
    have e2 := hK 2 (by show 2 < 3; omega) m2
    have hfin : State.val out = (1 / 3 : ℚ) • State.val state +
        (2 / 3 : ℚ) • (State.val (Y 2) + seconds dt • tval (K 2)) := by
      funext q ix
      rw [hout q ix, y2, y1]
      simp [List.range_succ, shuOsher]
      ring
    rw [hfin]
    exact hC hin e2 (by norm_num) (by norm_num) (by norm_num)

/-- C38: a convex functional that no forward Euler step with timestep `dt` increases is
not increased by SSPRungeKutta. -/
theorem ssprk_strong_stability {R : Registry} {prog : Prog σ} (hd : prog.Dicts) {three : Bool} {ab ab' : AB}
    {s s' : σ} {state : State} {dt : Int} {diag : Dict DataArray} {out : State} (hord : ab.order = 1)
    (hnd : (Dict.keys state).Nodup) (hT : state.TimeOk)
    (h : ssprkCall R prog three ab s state dt = (ab', s', .ok (diag, out)))
    (f : Values → ℚ) (hf : ConvexOn ℚ Set.univ f)
    (hE : ∀ s y r t, (prog s y dt).2 = .ok r → convertTendencies R y r.1 = .ok t →
      f (State.val y + seconds dt • tval t) ≤ f (State.val y)) :
    f (State.val out) ≤ f (State.val state) := by
  have hC : Convex ℚ {v | v ∈ Set.univ ∧ f v ≤ f (State.val state)} := hf.convex_le _
  have := ssprk_preserves_convex hd hord hnd hT h _ hC
    (fun s y r t hr hc hy => ⟨trivial, (hE s y r t hr hc).trans hy.2⟩) ⟨trivial, le_refl _⟩
  exact this.2

/-! ## Examples -/

/-- Decay of `h` at a rate of one tenth per second. -/
def Demo.decay : Prog Unit := fun u y _ =>
  (u, State.da y "h" >>= fun x =>
    if x.attrs.get? "units" = some "km" then
      .ok ([("h", { x.smul (-1 / 10) with attrs := [("units", "km s^-1")] })], [("d", Demo.prof)])
    else .error .valueError)

theorem Demo.decay_ok {u : Unit} {y : State} {dt : Int} {r : TendOut} (h : (Demo.decay u y dt).2 = .ok r) :
    ∃ x, Dict.get? y "h" = some (.da x) ∧ x.attrs.get? "units" = some "km" ∧
      r = ([("h", { x.smul (-1 / 10) with attrs := [("units", "km s^-1")] })], [("d", Demo.prof)]) := by
  obtain ⟨x, hx, h⟩ := Exc.bind_ok_iff.1 h
  split at h
  · rename_i hu
    injection h with h
    exact ⟨x, State.da_ok.1 hx, hu, h.symm⟩
  · cases h

theorem Demo.decay_dicts : Demo.decay.Dicts := by
  intro s state dt r h
  obtain ⟨x, _, _, rfl⟩ := Demo.decay_ok h
  exact List.nodup_singleton _

theorem Demo.decay_tval {u : Unit} {y : State} {dt : Int} {r : TendOut} {t : Dict DataArray}
    (h : (Demo.decay u y dt).2 = .ok r) (hc : convertTendencies Demo.reg y r.1 = .ok t) (q : String)
    (ix : String → Nat) : tval t q ix = if q = "h" then -1 / 10 * State.val y "h" ix else 0 := by
  obtain ⟨x, hx, hu, rfl⟩ := Demo.decay_ok h
  obtain ⟨k1, k2⟩ := convertTendencies_ok hc
  by_cases hq : q = "h"
  · subst hq
    obtain ⟨v', hv', hcv⟩ := k2 "h" _ rfl
    rw [if_pos rfl, tval_of_get hv', State.val_of_da hx]
    unfold convertTendency at hcv
    have hun : ({ x.smul (-1 / 10) with attrs := [("units", "km s^-1")] } : DataArray).attrs.get? "units" =
        some "km s^-1" := rfl
    simp only [hun] at hcv
    rw [State.da_ok.2 hx, Exc.ok_bind, Dict.get_eq_ok.2 hu, Exc.ok_bind] at hcv
    obtain ⟨own, ho, hd, hs, hph, _⟩ := toUnits_ok Demo.reg_faithful hcv
    rw [hun] at ho
    cases ho
    obtain ⟨a, b, ha, hb, _, he⟩ := hph (v'.dims.map ix)
    rw [show Demo.reg.parse ("km" ++ " s^-1") = Demo.reg.parse "km s^-1" from rfl, hb] at ha
    cases ha
    have hpos := a.scale_pos
    have : v'.arr.get (v'.dims.map ix) = (x.smul (-1 / 10)).arr.get (v'.dims.map ix) := by
      have h1 : (v'.arr.get (v'.dims.map ix) - (x.smul (-1 / 10)).arr.get (v'.dims.map ix)) * a.scale = 0 := by
        have : ({ x.smul (-1 / 10) with attrs := [("units", "km s^-1")] } : DataArray).arr = (x.smul (-1 / 10)).arr := rfl
        rw [this] at he
        linarith
      rcases mul_eq_zero.1 h1 with h1 | h1
      · linarith
      · rw [h1] at hpos; exact absurd hpos (lt_irrefl _)
    show v'.arr.get (v'.dims.map ix) = _
    rw [this, hd]
    rfl
  · rw [if_neg hq]
    apply tval_of_not_mem
    rw [k1]
    simpa [Dict.keys] using hq

theorem Demo.state_timeOk : Demo.state.TimeOk := by
  intro a h
  have : Dict.get? Demo.state "time" = some (.time 0) := rfl
  rw [this] at h; cases h

theorem Demo.state_nodup : (Dict.keys Demo.state).Nodup := by decide

/-- C31, C37: the hypotheses are met by exponential decay of `h`; three stages multiply
it by 1 - 1/10 + 1/200 - 1/6000. -/
example : ∃ ab' s' diag out, ssprkCall Demo.reg Demo.decay true { order := 1 } () Demo.state Demo.dt =
      (ab', s', .ok (diag, out)) ∧ State.val out "h" (fun _ => 1) = 2 * (1 - 1 / 10 + 1 / 200 - 1 / 6000) := by
  have h : Exc.test (ssprkCall Demo.reg Demo.decay true { order := 1 } () Demo.state Demo.dt).2.2
      (fun p => decide (State.val p.2 "h" (fun _ => 1) = 2 * (1 - 1 / 10 + 1 / 200 - 1 / 6000))) = true := by
    decide +kernel
  obtain ⟨⟨d, o⟩, h1, h2⟩ := Exc.test_ok h
  exact ⟨_, _, d, o, Prod.ext rfl (Prod.ext rfl h1), of_decide_eq_true h2⟩

/-- C37: its tendencies are linear. -/
example : ∃ L : Values →ₗ[ℚ] Values, ∀ s y r t, (Demo.decay s y Demo.dt).2 = .ok r →
    convertTendencies Demo.reg y r.1 = .ok t → tval t = L (State.val y) := by
  refine ⟨{ toFun := fun v q ix => if q = "h" then -1 / 10 * v "h" ix else 0, map_add' := ?_, map_smul' := ?_ }, ?_⟩
  · intro a b
    funext q ix
    simp only [Pi.add_apply]
    split <;> ring
  · intro c a
    funext q ix
    simp only [Pi.smul_apply, smul_eq_mul, RingHom.id_apply]
    split <;> ring
  · intro s y r t hr hc
    funext q ix
    rw [Demo.decay_tval hr hc]
    rfl

/-- C38: the states with non-negative `h` are a convex set that Euler steps of one second
do not leave, and the total of `h` over three levels a convex functional they do not
increase there. -/
example : Convex ℚ {v : Values | ∀ ix, 0 ≤ v "h" ix} ∧
    (∀ s y r t, (Demo.decay s y Demo.dt).2 = .ok r → convertTendencies Demo.reg y r.1 = .ok t →
      State.val y ∈ {v : Values | ∀ ix, 0 ≤ v "h" ix} →
      State.val y + seconds Demo.dt • tval t ∈ {v : Values | ∀ ix, 0 ≤ v "h" ix}) ∧
    State.val Demo.state ∈ {v : Values | ∀ ix, 0 ≤ v "h" ix} := by
  have hs : seconds Demo.dt = 1 := by decide +kernel
  refine ⟨?_, ?_, ?_⟩
  · intro a ha b hb c d hc hd _ ix
    simp only [Pi.add_apply, Pi.smul_apply, smul_eq_mul]
    exact add_nonneg (mul_nonneg hc (ha ix)) (mul_nonneg hd (hb ix))
  · intro s y r t hr hc hy ix
    simp only [Pi.add_apply, Pi.smul_apply, smul_eq_mul]
    rw [Demo.decay_tval hr hc, if_pos rfl, hs]
    have := hy ix
    linarith
  · intro ix
    show (0 : ℚ) ≤ ((ix "z" : Nat) : ℚ) + 1
    positivity

/-- C38: the square of `h` at a point is a convex functional that Euler steps of one
second do not increase. -/
example : ConvexOn ℚ Set.univ (fun v : Values => (v "h" (fun _ => 1)) ^ 2) ∧
    ∀ s y r t, (Demo.decay s y Demo.dt).2 = .ok r → convertTendencies Demo.reg y r.1 = .ok t →
      ((State.val y + seconds Demo.dt • tval t) "h" (fun _ => 1)) ^ 2 ≤ (State.val y "h" (fun _ => 1)) ^ 2 := by
  have hs : seconds Demo.dt = 1 := by decide +kernel
  refine ⟨⟨convex_univ, ?_⟩, ?_⟩
  · intro a _ b _ c d hc hd hcd
    simp only [Pi.add_apply, Pi.smul_apply, smul_eq_mul]
    have hd' : d = 1 - c := by linarith
    subst hd'
    nlinarith [mul_nonneg (mul_nonneg hc hd) (sq_nonneg (a "h" (fun _ => 1) - b "h" (fun _ => 1)))]
  · intro s y r t hr hc
    simp only [Pi.add_apply, Pi.smul_apply, smul_eq_mul]
    rw [Demo.decay_tval hr hc, if_pos rfl, hs]
    nlinarith [sq_nonneg (State.val y "h" (fun _ => 1))]

/-- Although a one-step method, SSPRungeKutta rejects a second timestep, as its Euler
stepper is an AdamsBashforth. -/
theorem ssprk_rejects_changed_timestep {R : Registry} {prog : Prog σ} {three : Bool} {ab : AB} {s : σ} {state : State}
    {dt : Int} (h : ab.timestep ≠ none) (h' : ab.timestep ≠ some dt) :
    ssprkCall R prog three ab s state dt = (ab, s, .error .valueError) := by
  have hc : eulerCall R prog ab s state dt = (ab, s, .error .valueError) := by
    unfold eulerCall AB.call
    rw [if_neg (by rintro (h1 | h1); exact h h1; exact h' h1)]
    rfl
  cases three with
  | true => simp only [ssprkCall, ssprk3, if_true]; rw [hc]
  | false => simp only [ssprkCall, ssprk2, Bool.false_eq_true, if_false]; rw [hc]

/-- One successful call is enough for that. -/
example : (ssprkCall Demo.reg Demo.decay true { order := 1 } () Demo.state Demo.dt).1.timestep = some Demo.dt := by
  decide +kernel

end Verif
