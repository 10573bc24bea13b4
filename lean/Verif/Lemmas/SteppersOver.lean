import Verif.Model.SteppersOver
import Verif.Lemmas.TimeSteppers
/-! # What the time steppers do to the entries of states, whatever the arithmetic -/

namespace Verif

variable {V σ : Type} {A : Arith V}

theorem copyUntouchedO_spec (old new : EState V) :
    (∀ k, k ∈ Dict.keys (copyUntouchedO old new) ↔ k ∈ Dict.keys old ∨ k ∈ Dict.keys new) ∧
    (∀ k ∈ Dict.keys new, Dict.get? (copyUntouchedO old new) k = Dict.get? new k) ∧
    (∀ k, k ∉ Dict.keys new → Dict.get? (copyUntouchedO old new) k = Dict.get? old k) := by
  induction old generalizing new with
  | nil =>
    refine ⟨fun k => by simp [copyUntouchedO], fun k _ => rfl, fun k h => ?_⟩
    exact (Dict.get?_eq_none_iff _ _).2 h
  | cons kv old ih =>
    obtain ⟨k0, v0⟩ := kv
    unfold copyUntouchedO
    have hk : Dict.keys ((k0, v0) :: old) = k0 :: Dict.keys old := rfl
    by_cases h0 : k0 ∈ Dict.keys new
    · rw [if_pos h0]
      obtain ⟨i1, i2, i3⟩ := ih new
      refine ⟨?_, i2, ?_⟩
      · intro k
        rw [i1, hk, List.mem_cons]
        constructor
        · rintro (h | h)
          · exact Or.inl (Or.inr h)
          · exact Or.inr h
        · rintro ((rfl | h) | h)
          · exact Or.inr h0
          · exact Or.inl h
          · exact Or.inr h
      · intro k hkn
        rw [i3 k hkn, Dict.get?_cons, if_neg]
        rintro rfl; exact hkn h0
    · rw [if_neg h0]
      obtain ⟨i1, i2, i3⟩ := ih (Dict.set new k0 v0)
      refine ⟨?_, ?_, ?_⟩
      · intro k
        rw [i1, hk, List.mem_cons, Dict.mem_keys_set]
        constructor
        · rintro (h | rfl | h)
          · exact Or.inl (Or.inr h)
          · exact Or.inl (Or.inl rfl)
          · exact Or.inr h
        · rintro ((rfl | h) | h)
          · exact Or.inr (Or.inl rfl)
          · exact Or.inl h
          · exact Or.inr (Or.inr h)
      · intro k hkn
        rw [i2 k ((Dict.mem_keys_set _ _ _ _).2 (Or.inr hkn)), Dict.get?_set_ne]
        rintro rfl; exact h0 hkn
      · intro k hkn
        rw [Dict.get?_cons]
        by_cases hkk : k0 = k
        · subst hkk
          rw [if_pos rfl, i2 k0 ((Dict.mem_keys_set _ _ _ _).2 (Or.inl rfl)), Dict.get?_set_self]
        · rw [if_neg hkk]
          apply i3
          intro hc
          rcases (Dict.mem_keys_set _ _ _ _).1 hc with rfl | hc
          · exact hkk rfl
          · exact hkn hc

/-- an entry that both states have is the same after copying what was untouched -/
theorem copyUntouchedO_same {old new : EState V} {q : String} {v : Option (Entry V)}
    (ho : Dict.get? old q = v) (hn : q ∉ Dict.keys new ∨ Dict.get? new q = v) :
    Dict.get? (copyUntouchedO old new) q = v := by
  obtain ⟨_, c2, c3⟩ := copyUntouchedO_spec old new
  by_cases hm : q ∈ Dict.keys new
  · rw [c2 q hm]
    rcases hn with hn | hn
    · exact absurd hm hn
    · exact hn
  · rw [c3 q hm, ho]

theorem nodup_copyUntouchedO : ∀ (old new : EState V), (Dict.keys new).Nodup →
    (Dict.keys (copyUntouchedO old new)).Nodup := by
  intro old
  induction old with
  | nil => intro new h; exact h
  | cons kv old ih =>
    intro new h
    unfold copyUntouchedO
    split
    · exact ih new h
    · exact ih _ (Dict.nodup_keys_set h _ _)

theorem EState.da_ok {s : EState V} {q : String} {a : V} :
    EState.da s q = .ok a ↔ Dict.get? s q = some (.da a) := by
  unfold EState.da
  cases h : Dict.get? s q with
  | none => simp
  | some v => cases v <;> simp

theorem convertTendenciesO_keys {state : EState V} : ∀ {t t' : Dict V},
    convertTendenciesO A state t = .ok t' → Dict.keys t' = Dict.keys t := by
  intro t
  induction t with
  | nil => intro t' h; unfold convertTendenciesO at h; cases h; rfl
  | cons kv t ih =>
    obtain ⟨k, v0⟩ := kv
    intro t' h
    unfold convertTendenciesO at h
    obtain ⟨v', hv, h⟩ := Exc.bind_ok_iff.1 h
    obtain ⟨rest, hr, h⟩ := Exc.bind_ok_iff.1 h
    injection h with h
    subst h
    show k :: Dict.keys rest = k :: Dict.keys t
    rw [ih hr]

theorem stepKeysO_ok {f : String → Except Err V} {ks : List String} {new : EState V}
    (h : stepKeysO f ks = .ok new) :
    Dict.keys new = ks ∧ ∀ q ∈ ks, ∃ v, f q = .ok v ∧ Dict.get? new q = some (.da v) := by
  induction ks generalizing new with
  | nil =>
    unfold stepKeysO at h; cases h
    exact ⟨rfl, by simp⟩
  | cons k ks ih =>
    unfold stepKeysO at h
    obtain ⟨v, hv, h⟩ := Exc.bind_ok_iff.1 h
    obtain ⟨rest, hr, h⟩ := Exc.bind_ok_iff.1 h
    injection h with h
    subst h
    obtain ⟨i1, i2⟩ := ih hr
    refine ⟨?_, ?_⟩
    · show k :: Dict.keys rest = _
      rw [i1]
    · intro q hq
      by_cases hkq : k = q
      · subst hkq
        exact ⟨v, hv, by rw [Dict.get?_cons, if_pos rfl]⟩
      · rcases List.mem_cons.1 hq with rfl | hq
        · exact absurd rfl hkq
        · obtain ⟨w, hw, hg⟩ := i2 q hq
          exact ⟨w, hw, by rw [Dict.get?_cons, if_neg hkq]; exact hg⟩

/-- the names that a step gives new values are the names of one of the dicts of tendencies -/
theorem performStepO_keys {order : Nat} {hist : List (Dict V)} {state new : EState V} {dt : Int}
    (h : performStepO A order hist state dt = .ok new) : ∃ t ∈ hist, Dict.keys new = Dict.keys t := by
  unfold performStepO at h
  cases hh : hist with
  | nil => rw [hh] at h; cases h
  | cons t0 l =>
    cases hr : hist.reverse with
    | nil => rw [List.reverse_eq_nil_iff] at hr; rw [hr] at hh; cases hh
    | cons t1 prev =>
      have ht1 : t1 ∈ hist := by rw [← List.mem_reverse, hr]; exact List.mem_cons_self
      rw [hr, hh] at h
      simp only at h
      rw [← hh] at h ⊢
      have ht0 : t0 ∈ hist := by rw [hh]; exact List.mem_cons_self
      split at h
      · exact ⟨t1, ht1, (stepKeysO_ok h).1⟩
      · exact ⟨t0, ht0, (stepKeysO_ok h).1⟩
      · exact ⟨t0, ht0, (stepKeysO_ok h).1⟩
      · exact ⟨t0, ht0, (stepKeysO_ok h).1⟩
      · cases h

/-- What a call of an AdamsBashforth that returns did. -/
theorem abOver_ok {prog : ProgOver σ V} {ab ab' : ABOver V} {s s' : σ} {state new : EState V} {dt : Int}
    {diag : Dict V} (h : ABOver.call A prog ab s state dt = (ab', s', .ok (diag, new))) :
    ∃ r t n, (prog s state dt).2 = .ok r ∧ convertTendenciesO A state r.1 = .ok t ∧
      performStepO A ab.order (ab.hist ++ [t]) state dt = .ok n ∧ new = copyUntouchedO state n ∧ diag = r.2 ∧
      s' = (prog s state dt).1 ∧ ab'.order = ab.order ∧ ab'.timestep = some dt ∧
      ab'.hist = (if (ab.hist ++ [t]).length = ab.order then (ab.hist ++ [t]).tail else ab.hist ++ [t]) := by
  unfold ABOver.call at h
  split at h
  · dsimp only at h
    cases hr : (prog s state dt).2 with
    | error e => rw [hr] at h; cases h
    | ok r =>
      rw [hr] at h
      dsimp only at h
      cases ht : convertTendenciesO A state r.1 with
      | error e => rw [ht] at h; cases h
      | ok t =>
        rw [ht] at h
        dsimp only at h
        cases hn : performStepO A ab.order (ab.hist ++ [t]) state dt with
        | error e => rw [hn] at h; cases h
        | ok n =>
          rw [hn] at h
          dsimp only at h
          simp only [Prod.mk.injEq, Except.ok.injEq] at h
          obtain ⟨h1, h2, h3, h4⟩ := h
          refine ⟨r, t, n, rfl, ht, hn, h4.symm, h3.symm, h2.symm, ?_, ?_, ?_⟩
          · rw [← h1]; split <;> rfl
          · rw [← h1]; split <;> rfl
          · rw [← h1]; split <;> rfl
  · cases h

/-! ## Sums and multiples of states -/

theorem timeEntryO_ne (s : EState V) {q : String} (h : q ≠ "time") : Dict.get? (timeEntryO s) q = none := by
  unfold timeEntryO
  cases Dict.get? s "time" with
  | none => rfl
  | some v => simp only; rw [Dict.get?_cons, if_neg (Ne.symm h)]; rfl

theorem timeEntryO_nodup (s : EState V) : (Dict.keys (timeEntryO s)).Nodup := by
  unfold timeEntryO
  cases Dict.get? s "time" with
  | none => exact List.nodup_nil
  | some v => exact List.nodup_singleton _

theorem addStatesLoopO_ok {s2 : EState V} : ∀ {s1 out0 out : EState V}, (Dict.keys s1).Nodup →
    (Dict.keys out0).Nodup → addStatesLoopO A s2 s1 out0 = .ok out →
    (Dict.keys out).Nodup ∧
    (∀ q, q = "time" ∨ q ∉ Dict.keys s1 → Dict.get? out q = Dict.get? out0 q) ∧
    (∀ q ∈ Dict.keys s1, q ≠ "time" → ∃ a b r, Dict.get? s1 q = some (.da a) ∧ Dict.get? s2 q = some (.da b) ∧
      A.add a b = .ok r ∧ Dict.get? out q = some (.da (A.setAttrs r (A.attrs a)))) := by
  intro s1
  induction s1 with
  | nil =>
    intro out0 out _ hnd h
    unfold addStatesLoopO at h
    cases h
    exact ⟨hnd, fun q _ => rfl, fun q hq => by simp [Dict.keys] at hq⟩
  | cons kv s1 ih =>
    obtain ⟨k, v⟩ := kv
    intro out0 out hnd hnd0 h
    have hkk : Dict.keys ((k, v) :: s1) = k :: Dict.keys s1 := rfl
    rw [hkk, List.nodup_cons] at hnd
    unfold addStatesLoopO at h
    by_cases hkt : k = "time"
    · rw [if_pos hkt] at h
      obtain ⟨i1, i2, i3⟩ := ih hnd.2 hnd0 h
      refine ⟨i1, ?_, ?_⟩
      · intro q hq
        apply i2
        rcases hq with hq | hq
        · exact Or.inl hq
        · exact Or.inr (fun hm => hq (by rw [hkk]; exact List.mem_cons_of_mem _ hm))
      · intro q hq hqt
        rw [hkk, List.mem_cons] at hq
        rcases hq with rfl | hq
        · exact absurd hkt hqt
        · rw [Dict.get?_cons, if_neg (fun (h : k = q) => hqt (h.symm.trans hkt))]
          exact i3 q hq hqt
    · rw [if_neg hkt] at h
      cases v with
      | time t => cases h
      | da a =>
        simp only at h
        obtain ⟨b, hb, h⟩ := Exc.bind_ok_iff.1 h
        obtain ⟨r, hr, h⟩ := Exc.bind_ok_iff.1 h
        obtain ⟨i1, i2, i3⟩ := ih hnd.2 (Dict.nodup_keys_set hnd0 _ _) h
        refine ⟨i1, ?_, ?_⟩
        · intro q hq
          have hqk : k ≠ q := by
            rintro rfl
            rcases hq with hq | hq
            · exact hkt hq
            · exact hq (by rw [hkk]; exact List.mem_cons_self)
          rw [i2, Dict.get?_set_ne _ _ hqk]
          rcases hq with hq | hq
          · exact Or.inl hq
          · exact Or.inr (fun hm => hq (by rw [hkk]; exact List.mem_cons_of_mem _ hm))
        · intro q hq hqt
          by_cases hqk : k = q
          · subst hqk
            refine ⟨a, b, r, by rw [Dict.get?_cons, if_pos rfl], EState.da_ok.1 hb, hr, ?_⟩
            rw [i2 k (Or.inr hnd.1), Dict.get?_set_self]
          · rw [hkk, List.mem_cons] at hq
            rcases hq with rfl | hq
            · exact absurd rfl hqk
            · rw [Dict.get?_cons, if_neg hqk]
              exact i3 q hq hqt

/-- `add` applies `+` to the entries of every quantity of the first state. -/
theorem addStatesO_ok {s1 s2 out : EState V} (hnd : (Dict.keys s1).Nodup) (h : addStatesO A s1 s2 = .ok out) :
    (Dict.keys out).Nodup ∧ ∀ q a b, q ≠ "time" → Dict.get? s1 q = some (.da a) → Dict.get? s2 q = some (.da b) →
      ∃ r, A.add a b = .ok r ∧ Dict.get? out q = some (.da (A.setAttrs r (A.attrs a))) := by
  obtain ⟨h1, _, h3⟩ := addStatesLoopO_ok hnd (timeEntryO_nodup s1) h
  refine ⟨h1, fun q a b hq ha hb => ?_⟩
  obtain ⟨a', b', r, ha', hb', hr, ho⟩ := h3 q (Dict.mem_keys_of_get? ha) hq
  rw [ha] at ha'; rw [hb] at hb'
  cases ha'; cases hb'
  exact ⟨r, hr, ho⟩

theorem scaleStateLoopO_ok {c : Rat} : ∀ {s out0 out : EState V}, (Dict.keys s).Nodup →
    (Dict.keys out0).Nodup → scaleStateLoopO A c s out0 = .ok out →
    (Dict.keys out).Nodup ∧
    (∀ q, q = "time" ∨ q ∉ Dict.keys s → Dict.get? out q = Dict.get? out0 q) ∧
    (∀ q ∈ Dict.keys s, q ≠ "time" → ∃ a, Dict.get? s q = some (.da a) ∧
      Dict.get? out q = some (.da (A.setAttrs (A.smul c a) (A.attrs a)))) := by
  intro s
  induction s with
  | nil =>
    intro out0 out _ hnd h
    unfold scaleStateLoopO at h
    cases h
    exact ⟨hnd, fun q _ => rfl, fun q hq => by simp [Dict.keys] at hq⟩
  | cons kv s ih =>
    obtain ⟨k, v⟩ := kv
    intro out0 out hnd hnd0 h
    have hkk : Dict.keys ((k, v) :: s) = k :: Dict.keys s := rfl
    rw [hkk, List.nodup_cons] at hnd
    unfold scaleStateLoopO at h
    by_cases hkt : k = "time"
    · rw [if_pos hkt] at h
      obtain ⟨i1, i2, i3⟩ := ih hnd.2 hnd0 h
      refine ⟨i1, ?_, ?_⟩
      · intro q hq
        apply i2
        rcases hq with hq | hq
        · exact Or.inl hq
        · exact Or.inr (fun hm => hq (by rw [hkk]; exact List.mem_cons_of_mem _ hm))
      · intro q hq hqt
        rw [hkk, List.mem_cons] at hq
        rcases hq with rfl | hq
        · exact absurd hkt hqt
        · rw [Dict.get?_cons, if_neg (fun (h : k = q) => hqt (h.symm.trans hkt))]
          exact i3 q hq hqt
    · rw [if_neg hkt] at h
      cases v with
      | time t => cases h
      | da a =>
        simp only at h
        obtain ⟨i1, i2, i3⟩ := ih hnd.2 (Dict.nodup_keys_set hnd0 _ _) h
        refine ⟨i1, ?_, ?_⟩
        · intro q hq
          have hqk : k ≠ q := by
            rintro rfl
            rcases hq with hq | hq
            · exact hkt hq
            · exact hq (by rw [hkk]; exact List.mem_cons_self)
          rw [i2, Dict.get?_set_ne _ _ hqk]
          rcases hq with hq | hq
          · exact Or.inl hq
          · exact Or.inr (fun hm => hq (by rw [hkk]; exact List.mem_cons_of_mem _ hm))
        · intro q hq hqt
          by_cases hqk : k = q
          · subst hqk
            refine ⟨a, by rw [Dict.get?_cons, if_pos rfl], ?_⟩
            rw [i2 k (Or.inr hnd.1), Dict.get?_set_self]
          · rw [hkk, List.mem_cons] at hq
            rcases hq with rfl | hq
            · exact absurd rfl hqk
            · rw [Dict.get?_cons, if_neg hqk]
              exact i3 q hq hqt

/-- `multiply` multiplies every quantity of the state. -/
theorem scaleStateO_ok {c : Rat} {s out : EState V} (hnd : (Dict.keys s).Nodup) (h : scaleStateO A c s = .ok out) :
    (Dict.keys out).Nodup ∧ ∀ q a, q ≠ "time" → Dict.get? s q = some (.da a) →
      Dict.get? out q = some (.da (A.setAttrs (A.smul c a) (A.attrs a))) := by
  obtain ⟨h1, _, h3⟩ := scaleStateLoopO_ok hnd (timeEntryO_nodup s) h
  refine ⟨h1, fun q a hq ha => ?_⟩
  obtain ⟨a', ha', ho⟩ := h3 q (Dict.mem_keys_of_get? ha) hq
  rw [ha] at ha'
  cases ha'
  exact ho

end Verif
