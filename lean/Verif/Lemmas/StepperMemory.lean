import Verif.Model.StepperMemory
import Verif.Lemmas.NestedComposite
import Verif.Props.Heap
import Verif.Lemmas.TimeSteppers
/-!
# Lemmas on time steppers with array identity
-/

namespace Verif

theorem allocState_spec {σ : Type} (s : State) (m : SMem σ) :
    (allocState s m).2.read (allocState s m).1.ext = s ∧ (allocState s m).1.own = m.own ∧
    (∀ l, l < m.world.2 → (allocState s m).1.ext l = m.ext l) ∧ m.world.2 ≤ (allocState s m).1.world.2 := by
  induction s generalizing m with
  | nil => exact ⟨rfl, rfl, fun _ _ => rfl, le_refl _⟩
  | cons kv s ih =>
    obtain ⟨k, v⟩ := kv
    cases v with
    | time t =>
      obtain ⟨h1, h2, h3, h4⟩ := ih m
      refine ⟨?_, h2, h3, h4⟩
      show (k, Val.time t) :: RState.read _ _ = _
      exact congrArg _ h1
    | da a =>
      obtain ⟨h1, h2, h3, h4⟩ := ih (m.new a).1
      have hn : (m.new a).1.world.2 = m.world.2 + 1 := rfl
      refine ⟨?_, h2, ?_, ?_⟩
      · show (k, Val.da ((allocState s (m.new a).1).1.ext m.world.2)) :: RState.read _ _ = _
        rw [h3 _ (by rw [hn]; omega)]
        show (k, Val.da (if m.world.2 = m.world.2 then a else _)) :: _ = _
        rw [if_pos rfl]
        exact congrArg _ h1
      · intro l hl
        show (allocState s (m.new a).1).1.ext l = _
        rw [h3 l (by rw [hn]; omega)]
        show (if l = m.world.2 then a else m.ext l) = _
        rw [if_neg (by omega)]
      · show _ ≤ (allocState s (m.new a).1).1.world.2
        rw [hn] at h4
        omega

theorem RState.keys_read (ext : Ext) (s : RState) : Dict.keys (s.read ext) = Dict.keys s := Dict.keys_mapVal _ _

theorem read_copyUntouchedR (ext : Ext) (old new : RState) :
    (copyUntouchedR old new).read ext = copyUntouched (old.read ext) (new.read ext) := by
  induction old generalizing new with
  | nil => rfl
  | cons kv old ih =>
    obtain ⟨k, v⟩ := kv
    show (if k ∈ Dict.keys new then copyUntouchedR old new else copyUntouchedR old (Dict.set new k v)).read ext =
      (if k ∈ Dict.keys (new.read ext) then copyUntouched (RState.read ext old) (new.read ext)
        else copyUntouched (RState.read ext old) (Dict.set (new.read ext) k (v.read ext)))
    rw [RState.keys_read]
    by_cases hk : k ∈ Dict.keys new
    · rw [if_pos hk, if_pos hk, ih]
    · rw [if_neg hk, if_neg hk, ih]
      congr 1
      exact mapVal_set _ _ _ _

theorem toUnits_kept {R : Registry} {v q : DataArray} {u : String} (h : v.toUnits R u = .ok q)
    (hu : q.attrs.get? "units" = v.attrs.get? "units") : q = v := by
  unfold DataArray.toUnits at h
  cases ho : v.attrs.get? "units" with
  | none => rw [ho] at h; cases h
  | some own =>
    rw [ho] at h hu
    dsimp only at h
    have hd : v.dataArrayToUnits R u = .ok q := by
      cases hd : v.dataArrayToUnits R u with
      | error e => rw [hd] at h; cases e <;> cases h
      | ok q' => rw [hd] at h; exact h
    unfold DataArray.dataArrayToUnits at hd
    rw [ho] at hd
    obtain ⟨a, ha, hd⟩ := Exc.bind_ok_iff.1 hd
    obtain ⟨b, hb, hd⟩ := Exc.bind_ok_iff.1 hd
    by_cases hs : a.sameQty b = true
    · rw [if_pos hs] at hd; cases hd; rfl
    · rw [if_neg hs] at hd
      by_cases hdim : a.dim = b.dim
      · rw [if_pos hdim] at hd
        cases hd
        rw [show (Dict.set v.attrs "units" u).get? "units" = some u from Dict.get?_set_self _ _ _] at hu
        cases hu
        rw [ha] at hb
        cases hb
        exact absurd (PintUnit.sameQty_iff.2 (by simp)) hs
      · rw [if_neg hdim] at hd; cases hd

theorem convertTendency_kept {R : Registry} {s : State} {q : String} {v w : DataArray}
    (h : convertTendency R s q v = .ok w) (hu : w.attrs.get? "units" = v.attrs.get? "units") : w = v := by
  unfold convertTendency at h
  cases ho : v.attrs.get? "units" with
  | none => rw [ho] at h; cases h; rfl
  | some u =>
    rw [ho] at h
    dsimp only at h
    obtain ⟨x, _, h⟩ := Exc.bind_ok_iff.1 h
    obtain ⟨y, _, h⟩ := Exc.bind_ok_iff.1 h
    exact toUnits_kept h hu

/-- All arrays are the stepper's own. -/
def Owned {σ : Type} (m : Mem σ) (t : Dict Ref) : Prop := ∀ kv ∈ t, ∃ l, kv.2 = Ref.own l ∧ l < m.own.length

/-- The stepper's own arrays of `m` are as they were in `m'`. -/
def KeepsOwn {σ : Type} (m m' : Mem σ) : Prop := m.own <+: m'.own

theorem KeepsOwn.refl {σ : Type} (m : Mem σ) : KeepsOwn m m := List.prefix_refl _

theorem KeepsOwn.trans {σ : Type} {m m' m'' : Mem σ} (h : KeepsOwn m m') (h' : KeepsOwn m' m'') : KeepsOwn m m'' :=
  List.IsPrefix.trans h h'

theorem KeepsOwn.read {σ : Type} {m m' : Mem σ} (h : KeepsOwn m m') {l : Nat} (hl : l < m.own.length) :
    m'.read (.own l) = m.read (.own l) := by
  obtain ⟨s, hs⟩ := h
  simp [Mem.read, ← hs, List.getElem?_append_left hl]

theorem KeepsOwn.readDict {σ : Type} {m m' : Mem σ} (h : KeepsOwn m m') {t : Dict Ref} (ht : Owned m t) :
    Dict.mapVal m'.read t = Dict.mapVal m.read t := by
  apply mapVal_congr
  intro kv hkv
  obtain ⟨l, hl, hlt⟩ := ht kv hkv
  rw [hl]
  exact h.read hlt

theorem Owned.mono {σ : Type} {m m' : Mem σ} (h : KeepsOwn m m') {t : Dict Ref} (ht : Owned m t) : Owned m' t := by
  intro kv hkv
  obtain ⟨l, hl, hlt⟩ := ht kv hkv
  exact ⟨l, hl, Nat.lt_of_lt_of_le hlt h.length_le⟩

theorem convertH_spec {σ : Type} (R : Registry) (state : RState) (t : Dict Ref) (m : SMem σ) (ht : Owned m t) :
    KeepsOwn m (convertH R state t m).1 ∧ (convertH R state t m).1.ext = m.ext ∧
    (convertH R state t m).1.world = m.world ∧
    (∀ e, (convertH R state t m).2 = .error e →
      convertTendencies R (state.read m.ext) (Dict.mapVal m.read t) = .error e) ∧
    ∀ t', (convertH R state t m).2 = .ok t' → Owned (convertH R state t m).1 t' ∧
      convertTendencies R (state.read m.ext) (Dict.mapVal m.read t) =
        .ok (Dict.mapVal (convertH R state t m).1.read t') := by
  induction t generalizing m with
  | nil =>
    refine ⟨KeepsOwn.refl _, rfl, rfl, fun e h => (by cases h), ?_⟩
    intro t' h
    cases h
    exact ⟨(fun kv hkv => (by cases hkv)), rfl⟩
  | cons kv t ih =>
    obtain ⟨q, r⟩ := kv
    have hval : convertTendencies R (state.read m.ext) (Dict.mapVal m.read ((q, r) :: t)) =
        (convertTendency R (state.read m.ext) q (m.read r) >>= fun v' =>
          convertTendencies R (state.read m.ext) (Dict.mapVal m.read t) >>= fun rest' => .ok ((q, v') :: rest')) := rfl
    rw [hval]
    cases hc : convertTendency R (state.read m.ext) q (m.read r) with
    | error e =>
      have hg : convertH R state ((q, r) :: t) m = (m, .error e) := by rw [convertH, hc]
      rw [hg]
      exact ⟨KeepsOwn.refl _, rfl, rfl, fun e' h => (by cases h; rfl), fun t' h => (by cases h)⟩
    | ok v =>
      have hg : ∀ (m1 : SMem σ) (r1 : Ref),
          (if v.attrs.get? "units" = (m.read r).attrs.get? "units" then (m, r) else m.alloc v) = (m1, r1) →
          convertH R state ((q, r) :: t) m = match convertH R state t m1 with
            | (m', .error e) => (m', .error e)
            | (m', .ok rest') => (m', .ok ((q, r1) :: rest')) := by
        intro m1 r1 h
        conv_lhs => rw [convertH, hc]
        dsimp only
        rw [h]
        rfl
      have ht1 : Owned m t := fun kv hkv => ht kv (List.mem_cons_of_mem _ hkv)
      obtain ⟨m1, r1, hp, hk, hx, hw, hr, hown⟩ : ∃ (m1 : SMem σ) (r1 : Ref),
          (if v.attrs.get? "units" = (m.read r).attrs.get? "units" then (m, r) else m.alloc v) = (m1, r1) ∧
          KeepsOwn m m1 ∧ m1.ext = m.ext ∧ m1.world = m.world ∧ m1.read r1 = v ∧
          ∃ l, r1 = .own l ∧ l < m1.own.length := by
        by_cases hu : v.attrs.get? "units" = (m.read r).attrs.get? "units"
        · refine ⟨m, r, if_pos hu, KeepsOwn.refl _, rfl, rfl, (convertTendency_kept hc hu).symm, ?_⟩
          exact ht (q, r) (by simp)
        · refine ⟨(m.alloc v).1, (m.alloc v).2, if_neg hu, List.prefix_append _ _, rfl, rfl, (read_alloc m v).1, ?_⟩
          exact ⟨m.own.length, rfl, by simp [Mem.alloc]⟩
      obtain ⟨l, rfl, hl⟩ := hown
      rw [hg m1 _ hp]
      obtain ⟨i1, i2, i3, i4, i5⟩ := ih m1 (ht1.mono hk)
      rw [hx, KeepsOwn.readDict hk ht1] at i4 i5
      rw [Exc.ok_bind]
      rcases hz : convertH R state t m1 with ⟨m2, (e | rest)⟩
      · rw [hz] at i1 i2 i3 i4
        dsimp only at i1 i2 i3 i4 ⊢
        refine ⟨hk.trans i1, by rw [i2, hx], by rw [i3, hw], ?_, fun t' h => (by cases h)⟩
        intro e' h
        rw [i4 e' h]; rfl
      · rw [hz] at i1 i2 i3 i5
        dsimp only at i1 i2 i3 i5 ⊢
        refine ⟨hk.trans i1, by rw [i2, hx], by rw [i3, hw], fun e h => (by cases h), ?_⟩
        intro t' h
        cases h
        obtain ⟨o1, o2⟩ := i5 rest rfl
        refine ⟨?_, ?_⟩
        · intro kv hkv
          rcases List.mem_cons.1 hkv with rfl | hkv
          · exact ⟨l, rfl, Nat.lt_of_lt_of_le hl i1.length_le⟩
          · exact o1 kv hkv
        · rw [o2, Exc.ok_bind]
          show Except.ok ((q, v) :: _) = Except.ok ((q, m2.read (.own l)) :: _)
          rw [i1.read hl, hr]
          rfl

/-! ## The composite changes only arrays it made itself -/

/-- Arrays made since there were `n` own arrays. -/
def Since {σ : Type} (n : Nat) (m : Mem σ) (t : Dict Ref) : Prop :=
  n ≤ m.own.length ∧ ∀ kv ∈ t, ∃ l, kv.2 = Ref.own l ∧ n ≤ l

theorem addEntryH_since {σ : Type} {R : Registry} {m : Mem σ} {t : Dict Ref} {k : String} {r : Ref} {n : Nat}
    (h : Since n m t) :
    (addEntryH R m t k r).1.own.take n = m.own.take n ∧ n ≤ (addEntryH R m t k r).1.own.length ∧
    ∀ t', (addEntryH R m t k r).2 = .ok t' → Since n (addEntryH R m t k r).1 t' := by
  have halloc : ∀ a, ((m.alloc a).1.own.take n = m.own.take n ∧ n ≤ (m.alloc a).1.own.length) ∧
      Since n (m.alloc a).1 (t.set k (m.alloc a).2) := by
    intro a
    have hlen : n ≤ (m.alloc a).1.own.length := by
      have := h.1
      simp only [Mem.alloc, List.length_append]
      omega
    refine ⟨⟨?_, hlen⟩, hlen, ?_⟩
    · simp only [Mem.alloc]
      exact List.take_append_of_le_length h.1
    · intro kv hkv
      rcases mem_set_ref hkv with hkv | rfl
      · exact h.2 kv hkv
      · exact ⟨m.own.length, rfl, h.1⟩
  unfold addEntryH
  cases hg : t.get? k with
  | none =>
    dsimp only
    refine ⟨(halloc _).1.1, (halloc _).1.2, ?_⟩
    intro t' ht
    cases ht
    exact (halloc _).2
  | some w =>
    dsimp only
    split
    · split
      · exact ⟨rfl, h.1, fun t' ht => (by cases ht)⟩
      · rename_i s _
        split
        · obtain ⟨l, hl, hn⟩ := h.2 _ (Dict.mem_of_get? hg)
          dsimp only at hl
          subst hl
          refine ⟨?_, ?_, ?_⟩
          · simp only [Mem.write]
            rw [List.take_set_of_le hn]
          · simp only [Mem.write, List.length_set]; exact h.1
          · intro t' ht
            cases ht
            refine ⟨by simp only [Mem.write, List.length_set]; exact h.1, ?_⟩
            intro kv hkv
            rcases mem_set_ref hkv with hkv | rfl
            · exact h.2 kv hkv
            · exact ⟨l, rfl, hn⟩
        · refine ⟨(halloc _).1.1, (halloc _).1.2, ?_⟩
          intro t' ht
          cases ht
          exact (halloc _).2
    · exact ⟨rfl, h.1, fun t' ht => (by cases ht)⟩

theorem addIntoH_since {σ : Type} {R : Registry} {n : Nat} (e : Dict Ref) (m : Mem σ) (t : Dict Ref)
    (h : Since n m t) :
    (addIntoH R e m t).1.own.take n = m.own.take n ∧ n ≤ (addIntoH R e m t).1.own.length ∧
    ∀ t', (addIntoH R e m t).2 = .ok t' → Since n (addIntoH R e m t).1 t' := by
  induction e generalizing m t with
  | nil => exact ⟨rfl, h.1, fun t' ht => (by cases ht; exact h)⟩
  | cons kv e ih =>
    obtain ⟨k, r⟩ := kv
    obtain ⟨a1, a2, a3⟩ := addEntryH_since (R := R) (k := k) (r := r) h
    unfold addIntoH
    cases hd : (addEntryH R m t k r).2 with
    | error err => exact ⟨a1, a2, fun t' ht => (by cases ht)⟩
    | ok t1 =>
      dsimp only
      obtain ⟨b1, b2, b3⟩ := ih (addEntryH R m t k r).1 t1 (a3 t1 hd)
      exact ⟨by rw [b1, a1], b2, b3⟩

theorem compositeLoopH_since {σ : Type} {R : Registry} {n : Nat} (fs : List (HComp σ)) (m : Mem σ) (t d : Dict Ref)
    (h : Since n m t) :
    (compositeLoopH R fs m t d).1.own.take n = m.own.take n ∧ n ≤ (compositeLoopH R fs m t d).1.own.length := by
  induction fs generalizing m t d with
  | nil => exact ⟨rfl, h.1⟩
  | cons f fs ih =>
    unfold compositeLoopH
    cases hf : (f (m.world, m.ext)).2 with
    | error e => exact ⟨rfl, h.1⟩
    | ok r =>
      dsimp only
      generalize hm1 : (⟨(f (m.world, m.ext)).1.1, (f (m.world, m.ext)).1.2, m.own⟩ : Mem σ) = m1
      have hown : m1.own = m.own := by rw [← hm1]
      have h1 : Since n m1 t := by
        unfold Since
        rw [hown]
        exact h
      obtain ⟨a1, a2, a3⟩ := addIntoH_since (R := R) (Dict.mapVal Ref.ext r.1) m1 t h1
      rw [hown] at a1
      cases hd : (addIntoH R (Dict.mapVal Ref.ext r.1) m1 t).2 with
      | error e => exact ⟨a1, a2⟩
      | ok t1 =>
        obtain ⟨b1, b2⟩ := ih (addIntoH R (Dict.mapVal Ref.ext r.1) m1 t).1 t1
          (d.update (Dict.mapVal Ref.ext r.2)) (a3 t1 hd)
        exact ⟨by rw [b1, a1], b2⟩

/-- Diagnostics refer to arrays of the components. -/
theorem compositeLoopH_diag {σ : Type} {R : Registry} (fs : List (HComp σ)) (m : Mem σ) (t d : Dict Ref)
    (hd : ∀ kv ∈ d, ∃ l, kv.2 = Ref.ext l) {t' d' : Dict Ref} (h : (compositeLoopH R fs m t d).2 = .ok (t', d')) :
    ∀ kv ∈ d', ∃ l, kv.2 = Ref.ext l := by
  induction fs generalizing m t d with
  | nil => cases h; exact hd
  | cons f fs ih =>
    unfold compositeLoopH at h
    cases hf : (f (m.world, m.ext)).2 with
    | error e => rw [hf] at h; cases h
    | ok r =>
      rw [hf] at h
      dsimp only at h
      split at h
      · cases h
      · refine ih _ _ _ ?_ h
        have hupd : ∀ (e : Dict Nat) (d : Dict Ref), (∀ kv ∈ d, ∃ l, kv.2 = Ref.ext l) →
            ∀ kv ∈ d.update (Dict.mapVal Ref.ext e), ∃ l, kv.2 = Ref.ext l := by
          intro e
          induction e with
          | nil => intro d hd; exact hd
          | cons kv e ihe =>
            intro d hd
            obtain ⟨k, l⟩ := kv
            show ∀ kv ∈ Dict.update d ((k, Ref.ext l) :: Dict.mapVal Ref.ext e), _
            rw [Dict.update_cons]
            apply ihe
            intro kv hkv
            rcases mem_set_ref hkv with hkv | rfl
            · exact hd kv hkv
            · exact ⟨l, rfl⟩
        exact hupd _ _ hd

theorem callComposite_spec {σ : Type} (R : Registry) (cs : List (RComp σ)) (m : SMem σ) (state : RState) (dt : Int) :
    KeepsOwn m (callComposite R cs m state dt).1 ∧
    ∀ r, (callComposite R cs m state dt).2 = .ok r → Owned (callComposite R cs m state dt).1 r.1 ∧
      r.1.keys.Nodup ∧ ∀ kv ∈ r.2, ∃ l, kv.2 = Ref.ext l := by
  obtain ⟨a1, a2⟩ := compositeLoopH_since (R := R) (n := m.own.length) (cs.map (fun f => f state dt)) m [] []
    ⟨le_refl _, fun kv hkv => (by cases hkv)⟩
  obtain ⟨_, _, _, a3⟩ := compositeLoopH_spec R (cs.map (fun f => f state dt)) m [] [] []
    ⟨fun kv hkv => (by cases hkv), List.Pairwise.nil⟩
  refine ⟨?_, ?_⟩
  · unfold KeepsOwn
    rw [List.take_length] at a1
    rw [← a1]
    exact List.take_prefix _ _
  · rintro ⟨t, d⟩ hr
    obtain ⟨b1, _, dv, b3⟩ := a3 t d hr
    refine ⟨b1.1, ?_, compositeLoopH_diag (R := R) _ m [] [] (by intro kv hkv; cases hkv) hr⟩
    rcases hz : compositeLoop R ((cs.map (fun f => f state dt)).map HComp.values) (m.world, m.ext)
      (Dict.mapVal m.read []) [] with ⟨s', o⟩
    rw [hz] at b3
    dsimp only at b3
    subst b3
    obtain ⟨rs, _, hs, _⟩ := compositeLoop_ok hz
    have := sumAll_nodup hs (by simp [Dict.mapVal, Dict.keys])
    rw [Dict.keys_mapVal] at this
    exact this

end Verif
