import Verif.Spec.MonitoredRuns
import Verif.Props.StepperMemory
import Verif.Props.Monitors
/-!
# Lemmas on runs with a NetCDFMonitor
-/

namespace Verif

theorem Dict.mem_update {α : Type} {d e : Dict α} {x : String × α} (h : x ∈ d.update e) : x ∈ d ∨ x ∈ e := by
  induction e generalizing d with
  | nil => exact .inl h
  | cons kv e ih =>
    rw [Dict.update_cons] at h
    rcases ih h with h | h
    · rcases Dict.mem_set h with h | h
      · exact .inl h
      · exact .inr (by rw [h]; exact List.mem_cons_self)
    · exact .inr (List.mem_cons_of_mem _ h)

theorem Dict.mem_of_mem_erase {α : Type} {d : Dict α} {k : String} {x : String × α} (h : x ∈ d.erase k) : x ∈ d := by
  induction d with
  | nil => cases h
  | cons kv d ih =>
    unfold Dict.erase at h
    split at h
    · exact List.mem_cons_of_mem _ h
    · rcases List.mem_cons.1 h with h | h
      · rw [h]; exact List.mem_cons_self
      · exact List.mem_cons_of_mem _ (ih h)

/-! ## What waits after a store -/

theorem ncSelect_mem {α : Type} {order : SetOrder} {names : Option (List String)} {s : Dict α} {x : String × α}
    (h : x ∈ ncSelect order names s) : x ∈ s := by
  unfold ncSelect at h
  cases names with
  | none => exact h
  | some l =>
    obtain ⟨n, _, hn⟩ := List.mem_filterMap.1 h
    cases hg : Dict.get? s n with
    | none => rw [hg] at hn; cases hn
    | some v =>
      rw [hg] at hn
      cases hn
      exact Dict.mem_of_get? hg

theorem ncAliasPass_mem {α : Type} {long short : String} (ns : List String) {cs cs' : Dict α}
    (h : ncAliasPass long short ns cs = .ok cs') {q : String} {v : α} (hm : (q, v) ∈ cs') : ∃ q', (q', v) ∈ cs := by
  induction ns generalizing cs with
  | nil => cases h; exact ⟨q, hm⟩
  | cons n ns ih =>
    unfold ncAliasPass at h
    by_cases hp : pyIn long n = true
    · rw [if_pos hp] at h
      by_cases he : pyReplace n long short = ""
      · rw [if_pos he] at h; cases h
      · rw [if_neg he] at h
        cases hg : Dict.get? cs n with
        | none => rw [hg] at h; cases h
        | some w =>
          rw [hg] at h
          obtain ⟨q', hq⟩ := ih h
          rcases Dict.mem_set hq with hq | hq
          · exact ⟨q', Dict.mem_of_mem_erase hq⟩
          · cases hq
            exact ⟨n, Dict.mem_of_get? hg⟩
    · rw [if_neg hp] at h
      exact ih h

theorem ncAliases_mem {α : Type} (al : Dict String) {cs cs' : Dict α} (h : ncAliases al cs = .ok cs') {q : String}
    {v : α} (hm : (q, v) ∈ cs') : ∃ q', (q', v) ∈ cs := by
  induction al generalizing cs with
  | nil => cases h; exact ⟨q, hm⟩
  | cons a al ih =>
    obtain ⟨x, hx, h⟩ := Exc.bind_ok_iff.1 h
    obtain ⟨q1, h1⟩ := ih h
    exact ncAliasPass_mem _ hx h1

theorem ncPrepareH_mem {order : SetOrder} {m : HNCMon} {s : HState} {t : Int} {cs : HState}
    (h : ncPrepareH order m s = .ok (t, cs)) {q : String} {v : HVal} (hm : (q, v) ∈ cs) : ∃ q', (q', v) ∈ s := by
  unfold ncPrepareH at h
  dsimp only at h
  split at h
  · cases h
  · obtain ⟨x, hx, h⟩ := Exc.bind_ok_iff.1 h
    cases hg : Dict.get? x "time" with
    | none => rw [hg] at h; cases h
    | some w =>
      rw [hg] at h
      obtain ⟨t', _, h⟩ := Exc.bind_ok_iff.1 h
      cases h
      obtain ⟨q1, h1⟩ := ncAliases_mem _ hx (Dict.mem_of_mem_erase hm)
      exact ⟨q1, ncSelect_mem h1⟩

theorem ncCacheAddH_mem {c : List (Int × HState)} {t : Int} {s : HState} {ts : Int × HState}
    (h : ts ∈ ncCacheAddH c t s) {x : String × HVal} (hx : x ∈ ts.2) : (∃ ts' ∈ c, x ∈ ts'.2) ∨ x ∈ s := by
  induction c with
  | nil =>
    rw [ncCacheAddH, List.mem_singleton] at h
    rw [h] at hx
    exact .inr hx
  | cons a c ih =>
    obtain ⟨t', s'⟩ := a
    rw [ncCacheAddH] at h
    by_cases ht : t' = t
    · rw [if_pos ht] at h
      rcases List.mem_cons.1 h with h | h
      · rw [h] at hx
        rcases Dict.mem_update hx with hx | hx
        · exact .inl ⟨_, List.mem_cons_self, hx⟩
        · exact .inr hx
      · exact .inl ⟨ts, List.mem_cons_of_mem _ h, hx⟩
    · rw [if_neg ht] at h
      rcases List.mem_cons.1 h with h | h
      · rw [h] at hx
        exact .inl ⟨_, List.mem_cons_self, hx⟩
      · rcases ih h with ⟨ts', h1, h2⟩ | h
        · exact .inl ⟨ts', List.mem_cons_of_mem _ h1, h2⟩
        · exact .inr h

theorem ncWriteH_waiting {mem : Arrays} {m : HNCMon} {l : Nat} (h : (ncWriteH mem m).1.Waiting l) : m.Waiting l := by
  revert h
  unfold ncWriteH
  generalize ncWriteFile m.usPerUnit m.deltas (m.cache.map fun ts => (ts.1, HState.read mem ts.2))
    (m.file.getD NCFile.empty) = fr
  obtain ⟨f, r⟩ := fr
  cases r with
  | error e => exact fun h => h
  | ok u =>
    rintro ⟨ts, hts, -⟩
    cases hts

theorem ncStoreH_waiting {order : SetOrder} {mem : Arrays} {m : HNCMon} {s : HState} {l : Nat}
    (h : (ncStoreH order mem m s).1.Waiting l) : m.Waiting l ∨ ∃ q, (q, HVal.ref l) ∈ s := by
  unfold ncStoreH at h
  cases hp : ncPrepareH order m s with
  | error e => rw [hp] at h; exact .inl h
  | ok p =>
    obtain ⟨t, cs⟩ := p
    rw [hp] at h
    dsimp only at h
    have h' : ({ m with cache := ncCacheAddH m.cache t cs } : HNCMon).Waiting l := by
      split at h
      · exact ncWriteH_waiting h
      · exact h
    obtain ⟨ts, hts, q, hq⟩ := h'
    rcases ncCacheAddH_mem hts hq with ⟨ts', h1, h2⟩ | h
    · exact .inl ⟨ts', h1, q, h2⟩
    · exact .inr (ncPrepareH_mem hp h)

theorem mem_held {s : RState} {q : String} {l : Nat} : (q, HVal.ref l) ∈ s.held ↔ (q, RVal.ref l) ∈ s := by
  unfold RState.held Dict.mapVal
  constructor
  · intro h
    obtain ⟨kv, hkv, he⟩ := List.mem_map.1 h
    obtain ⟨k, v⟩ := kv
    cases v with
    | time t => cases he
    | ref j => cases he; exact hkv
  · intro h
    exact List.mem_map.2 ⟨_, h, rfl⟩

theorem read_held (ext : Ext) (s : RState) : HState.read ext s.held = s.read ext := by
  unfold RState.held HState.read RState.read Dict.mapVal
  rw [List.map_map]
  refine List.map_congr_left fun kv _ => ?_
  obtain ⟨k, v⟩ := kv
  cases v <;> rfl

/-! ## Composites of considerate components -/

theorem compositeLoopH_considerate {σ : Type} {R : Registry} (fs : List (HComp (σ × Nat)))
    (hfs : ∀ f ∈ fs, ∀ w, w.1.2 ≤ (f w).1.1.2 ∧ (∀ l, l < w.1.2 → (f w).1.2 l = w.2 l) ∧
      ∀ r, (f w).2 = .ok r → ∀ kv ∈ r.2, kv.2 < (f w).1.1.2)
    (m : SMem σ) (t d : Dict Ref) (ht : OwnRefs m t) (hd : ∀ kv ∈ d, ∀ l, kv.2 = Ref.ext l → l < m.world.2) :
    m.world.2 ≤ (compositeLoopH R fs m t d).1.world.2 ∧
    (∀ l, l < m.world.2 → (compositeLoopH R fs m t d).1.ext l = m.ext l) ∧
    ∀ r, (compositeLoopH R fs m t d).2 = .ok r →
      ∀ kv ∈ r.2, ∀ l, kv.2 = Ref.ext l → l < (compositeLoopH R fs m t d).1.world.2 := by
  induction fs generalizing m t d with
  | nil => exact ⟨Nat.le_refl _, fun _ _ => rfl, fun r h => (by cases h; exact hd)⟩
  | cons f fs ih =>
    obtain ⟨f1, f2, f3⟩ := hfs f (by simp) (m.world, m.ext)
    unfold compositeLoopH
    cases hf : (f (m.world, m.ext)).2 with
    | error e => exact ⟨f1, f2, fun r h => (by cases h)⟩
    | ok r =>
      dsimp only
      generalize hm1 : (⟨(f (m.world, m.ext)).1.1, (f (m.world, m.ext)).1.2, m.own⟩ : SMem σ) = m1
      have ho : OwnRefs m1 t := by
        rw [← hm1]
        exact ht
      obtain ⟨a1, a2, _, a4⟩ := addIntoH_spec R r.1 m1 t ho
      have w1 : m1.world = (f (m.world, m.ext)).1.1 := by rw [← hm1]
      have x1 : m1.ext = (f (m.world, m.ext)).1.2 := by rw [← hm1]
      dsimp only at f1 f2 f3
      rw [← w1] at f1 f3
      rw [← x1] at f2
      cases hz : (addIntoH R (Dict.mapVal Ref.ext r.1) m1 t).2 with
      | error e =>
        dsimp only
        rw [a1, a2]
        exact ⟨f1, f2, fun r h => (by cases h)⟩
      | ok t1 =>
        dsimp only
        obtain ⟨i1, i2, i3⟩ := ih (fun g hg => hfs g (List.mem_cons_of_mem _ hg))
          (addIntoH R (Dict.mapVal Ref.ext r.1) m1 t).1 t1 (d.update (Dict.mapVal Ref.ext r.2)) (a4 t1 hz).1 (by
            intro kv hkv l hl
            rw [a2]
            rcases Dict.mem_update hkv with hkv | hkv
            · exact Nat.lt_of_lt_of_le (hd kv hkv l hl) f1
            · obtain ⟨⟨k, j⟩, hj, rfl⟩ := List.mem_map.1 hkv
              cases hl
              exact f3 r hf _ hj)
        rw [a2] at i1 i2
        rw [a1] at i2
        refine ⟨Nat.le_trans f1 i1, ?_, i3⟩
        intro l hl
        rw [i2 l (Nat.lt_of_lt_of_le hl f1), f2 l hl]

theorem callComposite_considerate {σ : Type} {R : Registry} {cs : List (RComp σ)} (hcs : ∀ f ∈ cs, Considerate f)
    (m : SMem σ) (state : RState) (dt : Int) :
    m.world.2 ≤ (callComposite R cs m state dt).1.world.2 ∧
    (∀ l, l < m.world.2 → (callComposite R cs m state dt).1.ext l = m.ext l) ∧
    ∀ r, (callComposite R cs m state dt).2 = .ok r →
      ∀ kv ∈ r.2, ∀ l, kv.2 = Ref.ext l → l < (callComposite R cs m state dt).1.world.2 := by
  refine compositeLoopH_considerate _ ?_ m [] [] ⟨fun kv hkv => (by cases hkv), List.Pairwise.nil⟩
    (fun kv hkv => (by cases hkv))
  intro f hf w
  obtain ⟨g, hg, rfl⟩ := List.mem_map.1 hf
  exact hcs g hg state dt w

/-! ## New states -/

theorem allocState_refs {σ : Type} (s : State) (m : SMem σ) {q : String} {l : Nat}
    (h : (q, RVal.ref l) ∈ (allocState s m).2) : m.world.2 ≤ l ∧ l < (allocState s m).1.world.2 := by
  induction s generalizing m with
  | nil => cases h
  | cons kv s ih =>
    obtain ⟨k, v⟩ := kv
    cases v with
    | time t =>
      rcases List.mem_cons.1 h with h | h
      · cases h
      · exact ih m h
    | da a =>
      have hn : (m.new a).1.world.2 = m.world.2 + 1 := rfl
      have hle := (allocState_spec s (m.new a).1).2.2.2
      rw [hn] at hle
      rcases List.mem_cons.1 h with h | h
      · cases h
        exact ⟨Nat.le_refl _, hle⟩
      · obtain ⟨i1, i2⟩ := ih (m.new a).1 h
        rw [hn] at i1
        exact ⟨by omega, i2⟩

theorem allocState_get {σ : Type} (s : State) (m : SMem σ) {k : String} {a : DataArray}
    (h : Dict.get? s k = some (.da a)) : ∃ l, Dict.get? (allocState s m).2 k = some (.ref l) := by
  have hr := (allocState_spec s m).1
  rw [← hr, RState.read, Dict.get?_mapVal] at h
  cases hg : Dict.get? (allocState s m).2 k with
  | none => rw [hg] at h; cases h
  | some v =>
    rw [hg] at h
    cases v with
    | time t => cases h
    | ref l => exact ⟨l, rfl⟩

theorem copyUntouchedR_mem (old new : RState) {x : String × RVal} (h : x ∈ copyUntouchedR old new) :
    x ∈ old ∨ x ∈ new := by
  induction old generalizing new with
  | nil => exact .inr h
  | cons kv old ih =>
    obtain ⟨k, v⟩ := kv
    rw [copyUntouchedR] at h
    split at h
    · rcases ih _ h with h | h
      · exact .inl (List.mem_cons_of_mem _ h)
      · exact .inr h
    · rcases ih _ h with h | h
      · exact .inl (List.mem_cons_of_mem _ h)
      · rcases Dict.mem_set h with h | h
        · exact .inr h
        · exact .inl (by rw [h]; exact List.mem_cons_self)

theorem copyUntouchedR_get (old new : RState) {k : String} (h : k ∈ Dict.keys new) :
    Dict.get? (copyUntouchedR old new) k = Dict.get? new k := by
  induction old generalizing new with
  | nil => rfl
  | cons kv old ih =>
    obtain ⟨k', v⟩ := kv
    rw [copyUntouchedR]
    split
    · exact ih _ h
    · rename_i hk
      rw [ih _ ((Dict.mem_keys_set _ _ _ _).2 (.inr h))]
      exact Dict.get?_set_ne _ _ (by rintro rfl; exact hk h)

theorem stepLeapfrogH_made {σ : Type} (a b : Rat) (old state : RState) (t : Dict Ref) (dt : Int) (ks : List String)
    (m : SMem σ) (new : RState) :
    m.world.2 ≤ (stepLeapfrogH a b old state t dt ks m new).1.world.2 ∧
    ∀ out, (stepLeapfrogH a b old state t dt ks m new).2 = .ok out →
      (∀ q l, (q, RVal.ref l) ∈ out → (q, RVal.ref l) ∈ new ∨
        (m.world.2 ≤ l ∧ l < (stepLeapfrogH a b old state t dt ks m new).1.world.2)) ∧
      (∀ k, k ∉ ks → Dict.get? out k = Dict.get? new k) ∧
      ∀ k ∈ ks, ∃ l, Dict.get? out k = some (.ref l) ∧ m.world.2 ≤ l := by
  induction ks generalizing m new with
  | nil =>
    refine ⟨Nat.le_refl _, fun out h => ?_⟩
    cases h
    exact ⟨fun q l h => .inl h, fun _ _ => rfl, fun k hk => (by cases hk)⟩
  | cons k ks ih =>
    rw [stepLeapfrogH]
    split
    · exact ⟨Nat.le_refl _, fun out h => (by cases h)⟩
    · rename_i r _
      split
      · rename_i j hj
        split
        · exact ⟨Nat.le_refl _, fun out h => (by cases h)⟩
        · rename_i n _
          have hw : (SMem.new (m.write (.ext j) r.1) n).1.world.2 = m.world.2 + 1 := rfl
          have hl : (SMem.new (m.write (.ext j) r.1) n).2 = m.world.2 := rfl
          obtain ⟨i1, i2⟩ := ih (SMem.new (m.write (.ext j) r.1) n).1
            (Dict.set new k (.ref (SMem.new (m.write (.ext j) r.1) n).2))
          rw [hw] at i1 i2
          refine ⟨by omega, fun out h => ?_⟩
          obtain ⟨j1, j2, j3⟩ := i2 out h
          refine ⟨?_, ?_, ?_⟩
          · intro q l hq
            rcases j1 q l hq with h1 | ⟨h1, h2⟩
            · rcases Dict.mem_set h1 with h1 | h1
              · exact .inl h1
              · cases h1
                exact .inr ⟨Nat.le_of_eq hl.symm, by omega⟩
            · exact .inr ⟨by omega, h2⟩
          · intro k' hk'
            rw [j2 k' (fun hm => hk' (List.mem_cons_of_mem _ hm))]
            exact Dict.get?_set_ne _ _ (by rintro rfl; exact hk' List.mem_cons_self)
          · intro k' hk'
            by_cases hks : k' ∈ ks
            · obtain ⟨l, h1, h2⟩ := j3 k' hks
              exact ⟨l, h1, by omega⟩
            · rcases List.mem_cons.1 hk' with rfl | hk'
              · exact ⟨m.world.2, by rw [j2 _ hks, Dict.get?_set_self, hl], Nat.le_refl _⟩
              · exact absurd hk' hks
      · exact ⟨Nat.le_refl _, fun out h => (by cases h)⟩

end Verif
