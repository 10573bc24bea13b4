import Verif.Lemmas.Rounding
import Verif.Lemmas.SteppersOver
import Verif.Lemmas.Backend
import Verif.Spec.Demo
/-!
# Quantities that are not stepped keep their values to the last bit: property C109

For quantities of which no component gives a tendency: AdamsBashforth and Leapfrog hand over the
very values, whatever the arithmetic.  SSPRungeKutta applies `add` and `multiply` (state.py) to all
quantities of the state: with two stages no element changes in binary floating-point arithmetic,
with three stages elements change by rounding (`ssprk3_changes_unstepped`), within a bound.
-/

namespace Verif

variable {V τ σ : Type} {A : Arith V}

/-! ## Runs -/

theorem runOver_keeps {call : τ → σ → EState V → Int → τ × σ × EState V × Except Err (Dict V × EState V)}
    {between : Dict V → EState V → EState V} {dt : Int} {q : String} (hb : LeavesAlone between q) (I : τ → Prop)
    (hcall : ∀ x s state x' s' st diag new, I x → call x s state dt = (x', s', st, .ok (diag, new)) →
      I x' ∧ Dict.get? new q = Dict.get? state q) :
    ∀ (n : Nat) (x : τ) (s : σ) (state : EState V) (x' : τ) (s' : σ) (final : EState V), I x →
      runOver call between dt n x s state = (x', s', .ok final) → Dict.get? final q = Dict.get? state q := by
  intro n
  induction n with
  | zero =>
    intro x s state x' s' final _ h
    unfold runOver at h
    simp only [Prod.mk.injEq, Except.ok.injEq] at h
    rw [h.2.2]
  | succ n ih =>
    intro x s state x' s' final hI h
    unfold runOver at h
    rcases hc : call x s state dt with ⟨y, s1, st, e | ⟨diag, new⟩⟩
    · rw [hc] at h; cases h
    · rw [hc] at h
      dsimp only at h
      obtain ⟨hy, hq⟩ := hcall _ _ _ _ _ _ _ _ hI hc
      rw [ih _ _ _ _ _ _ hy h, (hb diag new).1, hq]

/-- `TendencyStepper.__call__` keeps what `_call` keeps. -/
theorem tsCallO_keeps {call : τ → σ → EState V → Int → τ × σ × EState V × Except Err (Dict V × EState V)}
    {inProps outProps : PropDict} {inst : String} {tid : Bool} {x x' : τ} {s s' : σ} {state st new : EState V}
    {dt : Int} {diag : Dict V}
    (h : tsCallO A inProps outProps inst tid call x s state dt = (x', s', st, .ok (diag, new))) :
    ∃ d n, call x s state dt = (x', s', st, .ok (d, n)) ∧ new = copyUntouchedO st n := by
  unfold tsCallO at h
  rcases hc : call x s state dt with ⟨y, s1, st1, e | ⟨d, n⟩⟩
  · rw [hc] at h; cases h
  · rw [hc] at h
    dsimp only at h
    simp only [Prod.mk.injEq] at h
    obtain ⟨rfl, rfl, rfl, h⟩ := h
    obtain ⟨o, ho, h⟩ := Exc.bind_ok_iff.1 h
    cases ho
    dsimp only at h
    obtain ⟨_, _, h⟩ := Exc.bind_ok_iff.1 h
    simp only [Except.ok.injEq, Prod.mk.injEq] at h
    exact ⟨d, n, rfl, h.2.symm⟩

/-! ## AdamsBashforth and Leapfrog -/

theorem abOver_keeps {prog : ProgOver σ V} {q : String} (hp : NeverTends prog q) {ab ab' : ABOver V} {s s' : σ}
    {state new : EState V} {dt : Int} {diag : Dict V} (hh : ∀ d ∈ ab.hist, q ∉ Dict.keys d)
    (h : ABOver.call A prog ab s state dt = (ab', s', .ok (diag, new))) :
    (∀ d ∈ ab'.hist, q ∉ Dict.keys d) ∧ Dict.get? new q = Dict.get? state q := by
  obtain ⟨r, t, n, hr, ht, hn, rfl, _, _, _, _, hist⟩ := abOver_ok h
  have hall : ∀ d ∈ ab.hist ++ [t], q ∉ Dict.keys d := by
    intro d hd
    rcases List.mem_append.1 hd with hd | hd
    · exact hh d hd
    · rw [List.mem_singleton.1 hd, convertTendenciesO_keys ht]
      exact hp _ _ _ _ hr
  refine ⟨?_, copyUntouchedO_same rfl (Or.inl ?_)⟩
  · rw [hist]
    split
    · exact fun d hd => hall d (List.mem_of_mem_tail hd)
    · exact hall
  · obtain ⟨t', ht', hk⟩ := performStepO_keys hn
    rw [hk]
    exact hall t' ht'

/-- C109: AdamsBashforth keeps quantities without tendencies as they are, whatever the arithmetic,
in any number of steps. -/
theorem ab_keeps_unstepped (A : Arith V) {prog : ProgOver σ V} {q : String} (hp : NeverTends prog q)
    (inProps outProps : PropDict) (inst : String) (tid : Bool) {between : Dict V → EState V → EState V}
    (hb : LeavesAlone between q) (dt : Int) (n : Nat) (order : Nat) (s : σ) (state : EState V)
    {ab' : ABOver V} {s' : σ} {final : EState V}
    (h : runOver (tsCallO A inProps outProps inst tid (abCallO A prog)) between dt n { order := order } s state
      = (ab', s', .ok final)) : Dict.get? final q = Dict.get? state q := by
  refine runOver_keeps hb (fun ab => ∀ d ∈ ab.hist, q ∉ Dict.keys d) ?_ n _ s state ab' s' final
    (fun d hd => by cases hd) h
  intro x s state x' s' st diag new hx hc
  obtain ⟨d, m, hk, rfl⟩ := tsCallO_keeps hc
  unfold abCallO at hk
  simp only [Prod.mk.injEq] at hk
  obtain ⟨h1, h2, rfl, h4⟩ := hk
  obtain ⟨hi, hq⟩ := abOver_keeps hp hx (A := A) (s := s) (state := state) (dt := dt) (ab' := x') (s' := s')
    (diag := d) (new := m) (by rw [← h1, ← h2, ← h4])
  exact ⟨hi, copyUntouchedO_same rfl (Or.inr hq)⟩

theorem stepLeapfrogO_other {strength alpha : Rat} {old : EState V} {t : Dict V} {dt : Int} {q : String} :
    ∀ {ks : List String} {state new state' new' : EState V}, q ∉ ks →
      stepLeapfrogO A strength alpha old t dt ks state new = (state', .ok new') →
      Dict.get? state' q = Dict.get? state q ∧ Dict.get? new' q = Dict.get? new q := by
  intro ks
  induction ks with
  | nil =>
    intro state new state' new' _ h
    unfold stepLeapfrogO at h
    simp only [Prod.mk.injEq, Except.ok.injEq] at h
    rw [h.1, h.2]
    exact ⟨rfl, rfl⟩
  | cons k ks ih =>
    intro state new state' new' hq h
    unfold stepLeapfrogO at h
    rw [List.mem_cons, not_or] at hq
    split at h
    · cases h
    · split at h
      · cases h
      · obtain ⟨i1, i2⟩ := ih hq.2 h
        rw [i1, i2, Dict.get?_set_ne _ _ (Ne.symm hq.1), Dict.get?_set_ne _ _ (Ne.symm hq.1)]
        exact ⟨rfl, rfl⟩

theorem lfOver_keeps {prog : ProgOver σ V} {q : String} (hp : NeverTends prog q) {lf lf' : LFOver V} {s s' : σ}
    {state st new : EState V} {dt : Int} {diag : Dict V}
    (h : LFOver.call A prog lf s state dt = (lf', s', st, .ok (diag, new))) :
    Dict.get? st q = Dict.get? state q ∧ Dict.get? new q = Dict.get? state q := by
  unfold LFOver.call at h
  split at h
  · dsimp only at h
    cases hr : (prog s state dt).2 with
    | error e => rw [hr] at h; cases h
    | ok r =>
      rw [hr] at h
      dsimp only at h
      cases ht : convertTendenciesO A state r.1 with
      | error e => rw [ht] at h; cases h
      | ok t =>
        rw [ht] at h
        dsimp only at h
        have hqt : q ∉ Dict.keys t := by
          rw [convertTendenciesO_keys ht]
          exact hp _ _ _ _ hr
        cases ho : lf.old with
        | none =>
          rw [ho] at h
          dsimp only at h
          cases hn : stepEulerO A state t dt with
          | error e => rw [hn] at h; cases h
          | ok n =>
            rw [hn] at h
            simp only [Prod.mk.injEq, Except.ok.injEq] at h
            obtain ⟨_, _, rfl, _, rfl⟩ := h
            refine ⟨rfl, copyUntouchedO_same rfl (Or.inl ?_)⟩
            unfold stepEulerO at hn
            rw [(stepKeysO_ok hn).1]
            exact hqt
        | some old =>
          rw [ho] at h
          dsimp only at h
          rcases hs : stepLeapfrogO A lf.strength lf.alpha old t dt t.keys state [] with ⟨st1, e | n⟩
          · rw [hs] at h; cases h
          · rw [hs] at h
            simp only [Prod.mk.injEq, Except.ok.injEq] at h
            obtain ⟨_, _, rfl, _, rfl⟩ := h
            obtain ⟨h1, h2⟩ := stepLeapfrogO_other hqt hs
            exact ⟨h1, copyUntouchedO_same h1 (Or.inl ((Dict.get?_eq_none_iff _ _).1 h2))⟩
  · cases h

/-- C109: Leapfrog keeps quantities without tendencies as they are, whatever the arithmetic,
in any number of steps. -/
theorem leapfrog_keeps_unstepped (A : Arith V) {prog : ProgOver σ V} {q : String} (hp : NeverTends prog q)
    (inProps outProps : PropDict) (inst : String) (tid : Bool) {between : Dict V → EState V → EState V}
    (hb : LeavesAlone between q) (dt : Int) (n : Nat) (lf : LFOver V) (s : σ) (state : EState V)
    {lf' : LFOver V} {s' : σ} {final : EState V}
    (h : runOver (tsCallO A inProps outProps inst tid (LFOver.call A prog)) between dt n lf s state
      = (lf', s', .ok final)) : Dict.get? final q = Dict.get? state q := by
  refine runOver_keeps hb (fun _ => True) ?_ n _ s state lf' s' final trivial h
  intro x s state x' s' st diag new _ hc
  obtain ⟨d, m, hk, rfl⟩ := tsCallO_keeps hc
  obtain ⟨h1, h2⟩ := lfOver_keeps hp hk
  exact ⟨trivial, copyUntouchedO_same h1 (Or.inr h2)⟩

/-! ## SSPRungeKutta -/

theorem eulerCallO_keeps {prog : ProgOver σ V} {q : String} (hp : NeverTends prog q) {ab ab' : ABOver V} {s s' : σ}
    {state new : EState V} {dt : Int} {diag : Dict V} (hh : ∀ d ∈ ab.hist, q ∉ Dict.keys d)
    (h : eulerCallO A prog ab s state dt = (ab', s', .ok (diag, new))) :
    (∀ d ∈ ab'.hist, q ∉ Dict.keys d) ∧ Dict.get? new q = Dict.get? state q := by
  unfold eulerCallO at h
  rcases hc : ABOver.call A prog ab s state dt with ⟨ab1, s1, e | ⟨d, n⟩⟩
  · rw [hc] at h; cases h
  · rw [hc] at h
    dsimp only at h
    simp only [Exc.ok_bind, Prod.mk.injEq, Except.ok.injEq] at h
    obtain ⟨rfl, _, _, rfl⟩ := h
    obtain ⟨hi, hq⟩ := abOver_keeps hp hh hc
    exact ⟨hi, copyUntouchedO_same rfl (Or.inr hq)⟩

/-- the dicts of tendencies in the memory of the stepper -/
theorem eulerCallO_nodup {prog : ProgOver σ V} (hd : GivesDicts prog) {ab ab' : ABOver V} {s s' : σ}
    {state new : EState V} {dt : Int} {diag : Dict V} (hh : ∀ d ∈ ab.hist, (Dict.keys d).Nodup)
    (h : eulerCallO A prog ab s state dt = (ab', s', .ok (diag, new))) :
    (∀ d ∈ ab'.hist, (Dict.keys d).Nodup) ∧ (Dict.keys new).Nodup := by
  unfold eulerCallO at h
  rcases hc : ABOver.call A prog ab s state dt with ⟨ab1, s1, e | ⟨d, n⟩⟩
  · rw [hc] at h; cases h
  · rw [hc] at h
    dsimp only at h
    simp only [Exc.ok_bind, Prod.mk.injEq, Except.ok.injEq] at h
    obtain ⟨rfl, _, _, rfl⟩ := h
    obtain ⟨r, t, m, hr, ht, hm, rfl, _, _, _, _, hist⟩ := abOver_ok hc
    have hall : ∀ d ∈ ab.hist ++ [t], (Dict.keys d).Nodup := by
      intro d hd'
      rcases List.mem_append.1 hd' with hd' | hd'
      · exact hh d hd'
      · rw [List.mem_singleton.1 hd', convertTendenciesO_keys ht]
        exact hd _ _ _ _ hr
    refine ⟨?_, ?_⟩
    · rw [hist]
      split
      · exact fun d hd' => hall d (List.mem_of_mem_tail hd')
      · exact hall
    · apply nodup_copyUntouchedO
      apply nodup_copyUntouchedO
      obtain ⟨t', ht', hk⟩ := performStepO_keys hm
      rw [hk]
      exact hall t' ht'

section
variable {fl : Rat → Rat} {conv : DataArray → String → Except Err DataArray}

/-- Arrays with the same dims and lengths. -/
structure SameGrid (a b : DataArray) : Prop where
  dims : b.dims = a.dims
  shape : b.arr.shape = a.arr.shape

theorem roundedAdd_ok {a b r : DataArray} (h : (roundedArith fl conv).add a b = .ok r) :
    r.attrs = a.attrs ∧ r.dims = a.dims ++ b.dims.filter (fun d => d ∉ a.dims) ∧
    ∀ ix, r.at' ix = fl (a.at' ix + b.at' ix) := by
  obtain ⟨r', hr, h⟩ := Exc.bind_ok_iff.1 h
  injection h with h
  subst h
  obtain ⟨h1, h2, h3⟩ := add_ok hr
  exact ⟨h1, h2, fun ix => congrArg fl (h3 ix)⟩

theorem roundedAdd_grid {g a b r : DataArray} (hg : g.WF) (ha : SameGrid g a) (hb : SameGrid g b)
    (h : (roundedArith fl conv).add a b = .ok r) : SameGrid g r := by
  obtain ⟨r', hr, h⟩ := Exc.bind_ok_iff.1 h
  injection h with h
  subst h
  have hwf : a.WF := by
    unfold DataArray.WF
    rw [ha.dims, ha.shape]
    exact hg
  have hdims : a.dims ++ b.dims.filter (fun d => d ∉ a.dims) = a.dims := by
    rw [hb.dims, ← ha.dims]
    have : a.dims.filter (fun d => d ∉ a.dims) = [] := by
      rw [List.filter_eq_nil_iff]
      intro d hd
      simp [hd]
    rw [this, List.append_nil]
  unfold DataArray.add DataArray.binop at hr
  obtain ⟨p, hp, hr⟩ := Exc.bind_ok_iff.1 hr
  dsimp only at hp
  split at hp
  · injection hp with hp
    injection hr with hr
    subst hp
    subst hr
    constructor
    · show a.dims ++ b.dims.filter (fun d => d ∉ a.dims) = g.dims
      rw [hdims, ha.dims]
    · show (a.dims ++ b.dims.filter (fun d => d ∉ a.dims)).map _ = g.arr.shape
      rw [hdims, ← ha.shape, DataArray.shape_eq_map_len hwf]
      exact List.map_congr_left (fun d hd => if_pos hd)
  · cases hp

/-- `c * a` and `a + b` of states keep the attributes of `a` (state.py:13-14, 25-26) -/
theorem roundedScaled (c : Rat) (a : DataArray) :
    SameGrid a ((roundedArith fl conv).setAttrs ((roundedArith fl conv).smul c a) ((roundedArith fl conv).attrs a)) ∧
    ((roundedArith fl conv).setAttrs ((roundedArith fl conv).smul c a) ((roundedArith fl conv).attrs a)).attrs
      = a.attrs ∧
    ∀ ix, ((roundedArith fl conv).setAttrs ((roundedArith fl conv).smul c a)
      ((roundedArith fl conv).attrs a)).at' ix = fl (fl c * a.at' ix) := ⟨⟨rfl, rfl⟩, rfl, fun _ => rfl⟩

/-- Two stages: a quantity without tendencies is doubled and halved. -/
theorem ssprk2O_unstepped {prog : ProgOver σ DataArray} {q : String} (hp : NeverTends prog q) (hq : q ≠ "time")
    {ab ab' : ABOver DataArray} {s s' : σ} {state new : EState DataArray} {dt : Int} {diag : Dict DataArray}
    (hh : ∀ d ∈ ab.hist, q ∉ Dict.keys d) (hnd : (Dict.keys state).Nodup) {a : DataArray} (ha : a.WF)
    (hs : Dict.get? state q = some (.da a))
    (h : ssprk2O (roundedArith fl conv) prog ab s state dt = (ab', s', .ok (diag, new))) :
    (∀ d ∈ ab'.hist, q ∉ Dict.keys d) ∧ (Dict.keys new).Nodup ∧
    ∃ b, Dict.get? new q = some (.da b) ∧ SameGrid a b ∧ b.attrs = a.attrs ∧
      ∀ ix, b.at' ix = fl (fl (1 / 2) * fl (a.at' ix + a.at' ix)) := by
  unfold ssprk2O at h
  rcases h1 : eulerCallO (roundedArith fl conv) prog ab s state dt with ⟨ab1, s1, e | ⟨d1, st1⟩⟩
  · rw [h1] at h; cases h
  rw [h1] at h
  dsimp only at h
  rcases h2 : eulerCallO (roundedArith fl conv) prog ab1 s1 st1 dt with ⟨ab2, s2, e | ⟨d2, st2⟩⟩
  · rw [h2] at h; cases h
  rw [h2] at h
  dsimp only at h
  simp only [Prod.mk.injEq] at h
  obtain ⟨rfl, rfl, h⟩ := h
  obtain ⟨x, hx, h⟩ := Exc.bind_ok_iff.1 h
  obtain ⟨y, hy, h⟩ := Exc.bind_ok_iff.1 h
  simp only [Except.ok.injEq, Prod.mk.injEq] at h
  obtain ⟨_, rfl⟩ := h
  obtain ⟨i1, e1⟩ := eulerCallO_keeps hp hh h1
  obtain ⟨i2, e2⟩ := eulerCallO_keeps hp i1 h2
  obtain ⟨nx, hx⟩ := addStatesO_ok hnd hx
  obtain ⟨ny, hy⟩ := scaleStateO_ok nx hy
  obtain ⟨r, hr, hxq⟩ := hx q a a hq hs (by rw [e2, e1, hs])
  have hyq := hy q _ hq hxq
  obtain ⟨_, _, r3⟩ := roundedAdd_ok hr
  have rg := roundedAdd_grid ha ⟨rfl, rfl⟩ ⟨rfl, rfl⟩ hr
  refine ⟨i2, ny, _, hyq, ⟨rg.dims, rg.shape⟩, rfl, fun ix => ?_⟩
  show fl (fl (1 / 2) * r.at' ix) = _
  rw [r3 ix]

/-- Three stages: a quantity without tendencies becomes a rounded mean of itself, twice. -/
theorem ssprk3O_unstepped {prog : ProgOver σ DataArray} {q : String} (hp : NeverTends prog q) (hd : GivesDicts prog)
    (hq : q ≠ "time")
    {ab ab' : ABOver DataArray} {s s' : σ} {state new : EState DataArray} {dt : Int} {diag : Dict DataArray}
    (hh : ∀ d ∈ ab.hist, q ∉ Dict.keys d ∧ (Dict.keys d).Nodup) (hnd : (Dict.keys state).Nodup) {a : DataArray}
    (ha : a.WF) (hs : Dict.get? state q = some (.da a))
    (h : ssprk3O (roundedArith fl conv) prog ab s state dt = (ab', s', .ok (diag, new))) :
    (∀ d ∈ ab'.hist, q ∉ Dict.keys d ∧ (Dict.keys d).Nodup) ∧ (Dict.keys new).Nodup ∧
    ∃ b, Dict.get? new q = some (.da b) ∧ SameGrid a b ∧ b.attrs = a.attrs ∧
      ∀ ix, b.at' ix = fl (fl (fl (1 / 3) * a.at' ix) + fl (fl (2 / 3) *
        fl (fl (fl (3 / 4) * a.at' ix) + fl (fl (1 / 4) * a.at' ix)))) := by
  unfold ssprk3O at h
  rcases h1 : eulerCallO (roundedArith fl conv) prog ab s state dt with ⟨ab1, s1, e | ⟨d1, st1⟩⟩
  · rw [h1] at h; cases h
  rw [h1] at h
  dsimp only at h
  rcases h2 : eulerCallO (roundedArith fl conv) prog ab1 s1 st1 dt with ⟨ab2, s2, e | ⟨d2, st15⟩⟩
  · rw [h2] at h; cases h
  rw [h2] at h
  dsimp only at h
  cases hm : (scaleStateO (roundedArith fl conv) (3 / 4) state >>= fun x =>
      scaleStateO (roundedArith fl conv) (1 / 4) st15 >>= fun y => addStatesO (roundedArith fl conv) x y) with
  | error e => rw [hm] at h; cases h
  | ok st2 =>
  rw [hm] at h
  dsimp only at h
  rcases h3 : eulerCallO (roundedArith fl conv) prog ab2 s2 st2 dt with ⟨ab3, s3, e | ⟨d3, st25⟩⟩
  · rw [h3] at h; cases h
  rw [h3] at h
  dsimp only at h
  simp only [Prod.mk.injEq] at h
  obtain ⟨rfl, rfl, h⟩ := h
  obtain ⟨x', hx', h⟩ := Exc.bind_ok_iff.1 h
  obtain ⟨y', hy', h⟩ := Exc.bind_ok_iff.1 h
  obtain ⟨z', hz', h⟩ := Exc.bind_ok_iff.1 h
  simp only [Except.ok.injEq, Prod.mk.injEq] at h
  obtain ⟨_, rfl⟩ := h
  obtain ⟨x, hx, hm⟩ := Exc.bind_ok_iff.1 hm
  obtain ⟨y, hy, hm⟩ := Exc.bind_ok_iff.1 hm
  obtain ⟨i1, e1⟩ := eulerCallO_keeps hp (fun d hd => (hh d hd).1) h1
  obtain ⟨i2, e2⟩ := eulerCallO_keeps hp i1 h2
  obtain ⟨i3, e3⟩ := eulerCallO_keeps hp i2 h3
  obtain ⟨j1, n1⟩ := eulerCallO_nodup hd (fun d hd => (hh d hd).2) h1
  obtain ⟨j2, n2⟩ := eulerCallO_nodup hd j1 h2
  obtain ⟨j3, n3⟩ := eulerCallO_nodup hd j2 h3
  obtain ⟨nx, hx⟩ := scaleStateO_ok hnd hx
  obtain ⟨ny, hy⟩ := scaleStateO_ok n2 hy
  obtain ⟨nm, hm⟩ := addStatesO_ok nx hm
  obtain ⟨nx', hx'⟩ := scaleStateO_ok hnd hx'
  obtain ⟨ny', hy'⟩ := scaleStateO_ok n3 hy'
  obtain ⟨nz', hz'⟩ := addStatesO_ok nx' hz'
  obtain ⟨r, hr, hmq⟩ := hm q _ _ hq (hx q a hq hs) (hy q a hq (by rw [e2, e1, hs]))
  obtain ⟨r', hr', hzq⟩ := hz' q _ _ hq (hx' q a hq hs) (hy' q _ hq (by rw [e3, hmq]))
  obtain ⟨_, _, r3⟩ := roundedAdd_ok hr
  have rg := roundedAdd_grid ha (roundedScaled (3 / 4) a).1 (roundedScaled (1 / 4) a).1 hr
  obtain ⟨_, _, r3'⟩ := roundedAdd_ok hr'
  have rg' : SameGrid a r' := by
    refine roundedAdd_grid ha ?_ ?_ hr'
    · exact ⟨rfl, rfl⟩
    · exact ⟨rg.dims, rg.shape⟩
  refine ⟨fun d hd => ⟨i3 d hd, j3 d hd⟩, nz', _, hzq, ⟨rg'.dims, rg'.shape⟩, rfl, fun ix => ?_⟩
  show r'.at' ix = _
  rw [r3' ix]
  show fl (fl (fl (1 / 3) * a.at' ix) + fl (fl (2 / 3) * r.at' ix)) = _
  rw [r3 ix]
  rfl

end

/-- C109: SSPRungeKutta with two stages keeps every element of quantities without tendencies, in any
number of steps in binary floating-point arithmetic. -/
theorem ssprk2_keeps_unstepped {fl : Rat → Rat} (hfl : BinaryDigits fl)
    (conv : DataArray → String → Except Err DataArray) {prog : ProgOver σ DataArray} {q : String}
    (hp : NeverTends prog q) (hq : q ≠ "time") (inProps outProps : PropDict) (inst : String) (tid : Bool)
    {between : Dict DataArray → EState DataArray → EState DataArray} (hb : LeavesAlone between q) (dt : Int) :
    ∀ (n : Nat) (ab : ABOver DataArray) (s : σ) (state : EState DataArray) (a : DataArray)
      (ab' : ABOver DataArray) (s' : σ) (final : EState DataArray),
      (∀ d ∈ ab.hist, q ∉ Dict.keys d) → (Dict.keys state).Nodup → a.WF → (∀ ix, fl (a.at' ix) = a.at' ix) →
      Dict.get? state q = some (.da a) →
      runOver (tsCallO (roundedArith fl conv) inProps outProps inst tid
        (sspCallO (roundedArith fl conv) prog false)) between dt n ab s state = (ab', s', .ok final) →
      ∃ b, Dict.get? final q = some (.da b) ∧ EqualElements a b := by
  intro n
  induction n with
  | zero =>
    intro ab s state a ab' s' final _ _ _ _ hs h
    unfold runOver at h
    simp only [Prod.mk.injEq, Except.ok.injEq] at h
    rw [← h.2.2]
    exact ⟨a, hs, rfl, rfl, rfl, fun _ => rfl⟩
  | succ n ih =>
    intro ab s state a ab' s' final hh hnd ha hrep hs h
    unfold runOver at h
    rcases hc : tsCallO (roundedArith fl conv) inProps outProps inst tid
      (sspCallO (roundedArith fl conv) prog false) ab s state dt with ⟨ab1, s1, st1, e | ⟨d1, new⟩⟩
    · rw [hc] at h; cases h
    rw [hc] at h
    dsimp only at h
    obtain ⟨d, m, hk, rfl⟩ := tsCallO_keeps hc
    unfold sspCallO ssprkCallO at hk
    simp only [Prod.mk.injEq] at hk
    obtain ⟨h1, h2, rfl, h4⟩ := hk
    obtain ⟨hi, hn, b, hbq, hg, hat, hv⟩ := ssprk2O_unstepped hp hq hh hnd ha hs (fl := fl) (conv := conv) (s := s)
      (dt := dt) (ab' := ab1) (s' := s1) (diag := d) (new := m)
      (by rw [← h1, ← h2, ← h4]; rfl)
    have hsame : ∀ ix, b.at' ix = a.at' ix := by
      intro ix
      rw [hv ix, hfl.half, ← two_mul, hfl.double, hrep ix]
      rw [show (1 / 2 : Rat) * (2 * a.at' ix) = a.at' ix by ring, hrep ix]
    have hbn : Dict.get? (copyUntouchedO state m) q = some (.da b) := by
      rw [(copyUntouchedO_spec state m).2.1 q (Dict.mem_keys_of_get? hbq)]; exact hbq
    obtain ⟨c, hc1, hc2⟩ := ih ab1 s1 _ b ab' s' final hi ((hb d1 _).2 (nodup_copyUntouchedO _ _ hn))
      (by unfold DataArray.WF; rw [hg.dims, hg.shape]; exact ha) (fun ix => by rw [hsame ix, hrep ix])
      (by rw [(hb d1 _).1]; exact hbn) h
    exact ⟨c, hc1, hc2.dims.trans hg.dims, hc2.shape.trans hg.shape, hc2.attrs.trans hat,
      fun ix => (hc2.value ix).trans (hsame ix)⟩

/-- C109: SSPRungeKutta with three stages changes elements of quantities without tendencies in `n` steps
by at most the part `(1 + u)^(6 n) - 1`. -/
theorem ssprk3_keeps_unstepped_partial {u : Rat} (hu : 0 ≤ u) {fl : Rat → Rat} (hfl : Rounds u fl)
    (conv : DataArray → String → Except Err DataArray) {prog : ProgOver σ DataArray} {q : String}
    (hp : NeverTends prog q) (hd : GivesDicts prog) (hq : q ≠ "time") (inProps outProps : PropDict) (inst : String)
    (tid : Bool) {between : Dict DataArray → EState DataArray → EState DataArray} (hb : LeavesAlone between q)
    (dt : Int) :
    ∀ (n : Nat) (ab : ABOver DataArray) (s : σ) (state : EState DataArray) (a : DataArray)
      (ab' : ABOver DataArray) (s' : σ) (final : EState DataArray),
      (∀ d ∈ ab.hist, q ∉ Dict.keys d ∧ (Dict.keys d).Nodup) → (Dict.keys state).Nodup → a.WF →
      Dict.get? state q = some (.da a) →
      runOver (tsCallO (roundedArith fl conv) inProps outProps inst tid
        (sspCallO (roundedArith fl conv) prog true)) between dt n ab s state = (ab', s', .ok final) →
      ∃ b, Dict.get? final q = some (.da b) ∧ AlmostSame ((1 + u) ^ (6 * n) - 1) a b := by
  intro n
  induction n with
  | zero =>
    intro ab s state a ab' s' final _ _ _ hs h
    unfold runOver at h
    simp only [Prod.mk.injEq, Except.ok.injEq] at h
    rw [← h.2.2]
    exact ⟨a, hs, rfl, rfl, rfl, fun _ => by simp⟩
  | succ n ih =>
    intro ab s state a ab' s' final hh hnd ha hs h
    unfold runOver at h
    rcases hc : tsCallO (roundedArith fl conv) inProps outProps inst tid
      (sspCallO (roundedArith fl conv) prog true) ab s state dt with ⟨ab1, s1, st1, e | ⟨d1, new⟩⟩
    · rw [hc] at h; cases h
    rw [hc] at h
    dsimp only at h
    obtain ⟨d, m, hk, rfl⟩ := tsCallO_keeps hc
    unfold sspCallO ssprkCallO at hk
    simp only [Prod.mk.injEq] at hk
    obtain ⟨h1, h2, rfl, h4⟩ := hk
    obtain ⟨hi, hn, b, hbq, hg, hat, hv⟩ := ssprk3O_unstepped hp hd hq hh hnd ha hs (fl := fl) (conv := conv) (s := s)
      (dt := dt) (ab' := ab1) (s' := s1) (diag := d) (new := m)
      (by rw [← h1, ← h2, ← h4]; rfl)
    have hnear : ∀ ix, Near u 6 (b.at' ix) (a.at' ix) |a.at' ix| := by
      intro ix
      rw [hv ix]
      generalize a.at' ix = x
      have e1 := (Near.exact (u := u) x).smul hu hfl (3 / 4)
      have e2 := (Near.exact (u := u) x).smul hu hfl (1 / 4)
      have e3 := ((e1.add e2).round hu hfl).smul hu hfl (2 / 3)
      have e4 := ((Near.exact (u := u) x).smul hu hfl (1 / 3)).mono hu (show 0 + 2 ≤ 0 + 2 + 1 + 2 by omega)
        (le_refl _)
      have e5 := (e4.add e3).round hu hfl
      rw [show 1 / 3 * x + 2 / 3 * (3 / 4 * x + 1 / 4 * x) = x by ring] at e5
      refine e5.mono hu (by omega) (le_of_eq ?_)
      rw [abs_of_pos (by norm_num : (0 : Rat) < 3 / 4), abs_of_pos (by norm_num : (0 : Rat) < 1 / 4),
        abs_of_pos (by norm_num : (0 : Rat) < 2 / 3), abs_of_pos (by norm_num : (0 : Rat) < 1 / 3)]
      ring
    have hbn : Dict.get? (copyUntouchedO state m) q = some (.da b) := by
      rw [(copyUntouchedO_spec state m).2.1 q (Dict.mem_keys_of_get? hbq)]; exact hbq
    obtain ⟨c, hc1, hc2⟩ := ih ab1 s1 _ b ab' s' final hi ((hb d1 _).2 (nodup_copyUntouchedO _ _ hn))
      (by unfold DataArray.WF; rw [hg.dims, hg.shape]; exact ha) (by rw [(hb d1 _).1]; exact hbn) h
    refine ⟨c, hc1, hc2.dims.trans hg.dims, hc2.shape.trans hg.shape, hc2.attrs.trans hat, fun ix => ?_⟩
    have g1 := hc2.value ix
    have g2 := (hnear ix).err
    have g3 := (hnear ix).grown
    have g4 := one_le_pow hu (6 * n)
    have g5 : |c.at' ix - a.at' ix| ≤ |c.at' ix - b.at' ix| + |b.at' ix - a.at' ix| := by
      have := abs_add_le (c.at' ix - b.at' ix) (b.at' ix - a.at' ix)
      rwa [sub_add_sub_cancel] at this
    rw [show 6 * (n + 1) = 6 * n + 6 by ring, pow_add]
    nlinarith [mul_le_mul_of_nonneg_left g3 (by linarith : 0 ≤ (1 + u) ^ (6 * n) - 1)]

/-! ## Three stages change quantities that are not stepped -/

/-- latitudes 7 and 14, and a temperature -/
def Demo.sevens : EState DataArray :=
  [("lat", .da ⟨["y"], ⟨[2], fun i => 7 * (i.headD 0 + 1)⟩, [("units", "degrees_north")]⟩),
   ("T", .da ⟨["y"], ⟨[2], fun _ => 300⟩, [("units", "K")]⟩), ("time", .time 0)]

/-- cools everything by 1/4 K per second -/
def Demo.cools : ProgOver Unit DataArray :=
  fun s _ _ => (s, .ok ([("T", ⟨["y"], ⟨[2], fun _ => -1 / 4⟩, [("units", "K s^-1")]⟩)], []))

/-- no conversions -/
def Demo.asIs : DataArray → String → Except Err DataArray := fun a _ => .ok a

/-- the value of a quantity in a state -/
def Demo.valueIn (s : EState DataArray) (q : String) (ix : String → Nat) : Rat :=
  match Dict.get? s q with
  | some (.da a) => a.at' ix
  | _ => 0

theorem Demo.cools_leaves : NeverTends Demo.cools "lat" := by
  intro s state dt r h
  cases h
  decide

theorem Demo.cools_dicts : GivesDicts Demo.cools := by
  intro s state dt r h
  cases h
  decide

/-- The code does not keep quantities that are not stepped: in `float64` arithmetic, one step of
SSPRungeKutta with three stages changes a latitude of 7 degrees, for which no component gives a tendency. -/
theorem ssprk3_changes_unstepped : ∃ (state new : EState DataArray) (prog : ProgOver Unit DataArray)
    (ab : ABOver DataArray) (diag : Dict DataArray),
    NeverTends prog "lat" ∧ (∀ q, binary64 (Demo.valueIn state q (fun _ => 0)) = Demo.valueIn state q (fun _ => 0)) ∧
    ssprk3O (roundedArith binary64 Demo.asIs) prog { order := 1 } () state 1000000 = (ab, (), .ok (diag, new)) ∧
    Demo.valueIn state "lat" (fun _ => 0) = 7 ∧ Demo.valueIn new "lat" (fun _ => 0) < 7 := by
  rcases h : ssprk3O (roundedArith binary64 Demo.asIs) Demo.cools { order := 1 } () Demo.sevens 1000000 with
    ⟨ab, u, e | ⟨diag, new⟩⟩
  · exfalso
    have : Exc.test (ssprk3O (roundedArith binary64 Demo.asIs) Demo.cools { order := 1 } () Demo.sevens
      1000000).2.2 (fun _ => true) = true := by decide +kernel
    rw [h] at this
    cases this
  · refine ⟨Demo.sevens, new, Demo.cools, ab, diag, Demo.cools_leaves, ?_, h, by decide +kernel, ?_⟩
    · intro q
      by_cases h1 : q = "lat"
      · subst h1; decide +kernel
      · by_cases h2 : q = "T"
        · subst h2; decide +kernel
        · have : Demo.valueIn Demo.sevens q (fun _ => 0) = 0 := by
            unfold Demo.valueIn Demo.sevens
            rw [Dict.get?_cons, if_neg (Ne.symm h1), Dict.get?_cons, if_neg (Ne.symm h2), Dict.get?_cons]
            by_cases h3 : "time" = q
            · rw [if_pos h3]
            · rw [if_neg h3]; rfl
          rw [this]
          exact binary64_rounds.zero
    · have : Exc.test (ssprk3O (roundedArith binary64 Demo.asIs) Demo.cools { order := 1 } () Demo.sevens
        1000000).2.2 (fun o => Demo.valueIn o.2 "lat" (fun _ => 0) < 7) = true := by decide +kernel
      rw [h] at this
      simpa [Exc.test] using this

/-! ## Non-vacuity -/

theorem Demo.nothing_between (q : String) : LeavesAlone (fun (_ : Dict DataArray) (s : EState DataArray) => s) q :=
  fun _ _ => ⟨rfl, id⟩

/-- runs of two steps with every scheme return -/
example : Exc.test (runOver (tsCallO (roundedArith binary64 Demo.asIs) [] [] "" false
      (abCallO (roundedArith binary64 Demo.asIs) Demo.cools)) (fun _ s => s) 1000000 2 { order := 2 } ()
      Demo.sevens).2.2 (fun s => Demo.valueIn s "lat" (fun _ => 0) = 7 ∧
        Demo.valueIn s "T" (fun _ => 0) = 599 / 2) = true ∧
    Exc.test (runOver (tsCallO (roundedArith binary64 Demo.asIs) [] [] "" false
      (LFOver.call (roundedArith binary64 Demo.asIs) Demo.cools)) (fun _ s => s) 1000000 2 {} ()
      Demo.sevens).2.2 (fun s => Demo.valueIn s "lat" (fun _ => 0) = 7 ∧
        Demo.valueIn s "T" (fun _ => 0) = 599 / 2) = true ∧
    Exc.test (runOver (tsCallO (roundedArith binary64 Demo.asIs) [] [] "" false
      (sspCallO (roundedArith binary64 Demo.asIs) Demo.cools false)) (fun _ s => s) 1000000 2 { order := 1 } ()
      Demo.sevens).2.2 (fun s => Demo.valueIn s "lat" (fun _ => 0) = 7 ∧
        Demo.valueIn s "T" (fun _ => 0) = 599 / 2) = true ∧
    Exc.test (runOver (tsCallO (roundedArith binary64 Demo.asIs) [] [] "" false
      (sspCallO (roundedArith binary64 Demo.asIs) Demo.cools true)) (fun _ s => s) 1000000 2 { order := 1 } ()
      Demo.sevens).2.2 (fun s => Demo.valueIn s "lat" (fun _ => 0) ≠ 7) = true := by
  decide +kernel

/-- the hypotheses of `ssprk2_keeps_unstepped` and `ssprk3_keeps_unstepped_partial` about the latitudes -/
example : BinaryDigits binary64 ∧ Rounds (2 ^ (-53 : Int)) binary64 ∧ NeverTends Demo.cools "lat" ∧
    GivesDicts Demo.cools ∧ (Dict.keys Demo.sevens).Nodup ∧ binary64 7 = 7 ∧ binary64 14 = 14 :=
  ⟨binary64_digits, binary64_rounds, Demo.cools_leaves, Demo.cools_dicts, by decide, by decide +kernel,
    by decide +kernel⟩

end Verif
