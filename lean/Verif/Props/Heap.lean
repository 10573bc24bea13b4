import Verif.Model.Heap
import Verif.Props.Composite
import Verif.Props.Aliases
/-!
# C30: composites do not change arrays of their components
-/

namespace Verif

/-- The accumulated tendencies are distinct arrays of the composite. -/
def OwnRefs {σ : Type} (m : Mem σ) (t : Dict Ref) : Prop :=
  (∀ kv ∈ t, ∃ l, kv.2 = Ref.own l ∧ l < m.own.length) ∧ t.Pairwise (fun a b => a.2 ≠ b.2)

theorem mapVal_congr {α β : Type} {f g : α → β} {t : Dict α} (h : ∀ kv ∈ t, f kv.2 = g kv.2) :
    Dict.mapVal f t = Dict.mapVal g t := by
  unfold Dict.mapVal
  apply List.map_congr_left
  intro kv hkv
  rw [h kv hkv]

theorem mem_set_ref {t : Dict Ref} {k : String} {r : Ref} {kv : String × Ref} (h : kv ∈ t.set k r) :
    kv ∈ t ∨ kv = (k, r) := by
  rcases Dict.mem_set h with h | h
  · exact Or.inl h
  · exact Or.inr h

theorem read_alloc {σ : Type} (m : Mem σ) (a : DataArray) :
    (m.alloc a).1.read (m.alloc a).2 = a ∧
    ∀ l, l < m.own.length → (m.alloc a).1.read (.own l) = m.read (.own l) := by
  constructor
  · simp [Mem.alloc, Mem.read]
  · intro l hl
    simp [Mem.alloc, Mem.read, List.getElem?_append_left hl]

theorem set_pairwise {t : Dict Ref} {k : String} {r : Ref} (hp : t.Pairwise (fun a b => a.2 ≠ b.2))
    (hr : ∀ kv ∈ t, kv.2 ≠ r) : (t.set k r).Pairwise (fun a b => a.2 ≠ b.2) := by
  induction t with
  | nil => simp [Dict.set]
  | cons kv t ih =>
    rw [List.pairwise_cons] at hp
    obtain ⟨k', r'⟩ := kv
    unfold Dict.set
    split
    · rw [List.pairwise_cons]
      exact ⟨fun b hb => (hr b (List.mem_cons_of_mem _ hb)).symm, hp.2⟩
    · rw [List.pairwise_cons]
      refine ⟨?_, ih hp.2 (fun b hb => hr b (List.mem_cons_of_mem _ hb))⟩
      intro b hb
      rcases mem_set_ref hb with hb | rfl
      · exact hp.1 b hb
      · exact hr (k', r') (by simp)

/-- Allocating a new array for a key. -/
theorem ownRefs_alloc {σ : Type} {m : Mem σ} {t : Dict Ref} (h : OwnRefs m t) (k : String) (a : DataArray) :
    OwnRefs (m.alloc a).1 (t.set k (m.alloc a).2) ∧
    Dict.mapVal (m.alloc a).1.read (t.set k (m.alloc a).2) = (Dict.mapVal m.read t).set k a := by
  obtain ⟨h1, h2⟩ := h
  refine ⟨⟨?_, ?_⟩, ?_⟩
  · intro kv hkv
    rcases mem_set_ref hkv with hkv | rfl
    · obtain ⟨l, hl, hlt⟩ := h1 kv hkv
      exact ⟨l, hl, by simp [Mem.alloc]; omega⟩
    · exact ⟨m.own.length, rfl, by simp [Mem.alloc]⟩
  · apply set_pairwise h2
    intro kv hkv he
    obtain ⟨l, hl, hlt⟩ := h1 kv hkv
    rw [hl] at he
    simp [Mem.alloc] at he
    omega
  · rw [mapVal_set, (read_alloc m a).1]
    congr 1
    apply mapVal_congr
    intro kv hkv
    obtain ⟨l, hl, hlt⟩ := h1 kv hkv
    rw [hl]
    exact (read_alloc m a).2 l hlt

/-- Changing an accumulated array in place changes that key only. -/
theorem ownRefs_write {σ : Type} {m : Mem σ} {t : Dict Ref} (h : OwnRefs m t) {k : String} {w : Ref}
    (hw : t.get? k = some w) (a : DataArray) :
    OwnRefs (m.write w a) (t.set k w) ∧
    Dict.mapVal (m.write w a).read (t.set k w) = (Dict.mapVal m.read t).set k a ∧
    (m.write w a).ext = m.ext ∧ (m.write w a).world = m.world := by
  obtain ⟨h1, h2⟩ := h
  obtain ⟨l, hl, hlt⟩ := h1 _ (Dict.mem_of_get? hw)
  dsimp only at hl
  subst hl
  have hset : t.set k (.own l) = t := Dict.set_eq_self hw
  have hlen : (m.write (.own l) a).own.length = m.own.length := by simp [Mem.write]
  refine ⟨?_, ?_, rfl, rfl⟩
  · rw [hset]
    refine ⟨?_, h2⟩
    intro kv hkv
    obtain ⟨l', hl', hlt'⟩ := h1 kv hkv
    exact ⟨l', hl', by rw [hlen]; exact hlt'⟩
  · rw [hset]
    have hread : (m.write (.own l) a).read (.own l) = a := by
      simp [Mem.write, Mem.read, hlt]
    have hread' : ∀ r, r ≠ .own l → (m.write (.own l) a).read r = m.read r := by
      intro r hr
      cases r with
      | ext l' => rfl
      | own l' =>
        have : l' ≠ l := by rintro rfl; exact hr rfl
        simp [Mem.write, Mem.read, List.getElem?_set_ne (Ne.symm this)]
    clear h1 hset hlen hlt
    induction t with
    | nil => cases hw
    | cons kv t ih =>
      obtain ⟨k', r'⟩ := kv
      rw [List.pairwise_cons] at h2
      rw [Dict.get?_cons] at hw
      by_cases hk : k' = k
      · subst hk
        simp only [if_true] at hw
        cases hw
        show (k', (m.write (.own l) a).read (.own l)) :: Dict.mapVal (m.write (.own l) a).read t =
          Dict.set ((k', m.read (.own l)) :: Dict.mapVal m.read t) k' a
        unfold Dict.set
        rw [if_pos rfl, hread]
        congr 1
        apply mapVal_congr
        intro kv hkv
        exact hread' _ (h2.1 kv hkv).symm
      · rw [if_neg hk] at hw
        show (k', (m.write (.own l) a).read r') :: Dict.mapVal (m.write (.own l) a).read t =
          Dict.set ((k', m.read r') :: Dict.mapVal m.read t) k a
        unfold Dict.set
        rw [if_neg hk, ih h2.2 hw]
        congr 2
        exact hread' _ (h2.1 _ (Dict.mem_of_get? hw))

/-- The in-place loop does what the value-level loop does and leaves the components'
arrays alone. -/
theorem addIntoH_spec {σ : Type} (R : Registry) (e : Dict Nat) (m : Mem σ) (t : Dict Ref) (h : OwnRefs m t) :
    (addIntoH R (Dict.mapVal Ref.ext e) m t).1.ext = m.ext ∧
    (addIntoH R (Dict.mapVal Ref.ext e) m t).1.world = m.world ∧
    (∀ err, (addIntoH R (Dict.mapVal Ref.ext e) m t).2 = .error err →
      addInto R (Dict.mapVal m.ext e) (Dict.mapVal m.read t) = .error err) ∧
    (∀ t', (addIntoH R (Dict.mapVal Ref.ext e) m t).2 = .ok t' →
      OwnRefs (addIntoH R (Dict.mapVal Ref.ext e) m t).1 t' ∧
      addInto R (Dict.mapVal m.ext e) (Dict.mapVal m.read t) =
        .ok (Dict.mapVal (addIntoH R (Dict.mapVal Ref.ext e) m t).1.read t')) := by
  induction e generalizing m t with
  | nil =>
    refine ⟨rfl, rfl, fun err he => (by cases he), ?_⟩
    intro t' ht'
    injection ht' with ht'
    subst ht'
    exact ⟨h, rfl⟩
  | cons kv e ih =>
    obtain ⟨k, l⟩ := kv
    show ((addIntoH R ((k, Ref.ext l) :: Dict.mapVal Ref.ext e) m t).1.ext = m.ext) ∧ _ ∧
      (∀ err, _ → addInto R ((k, m.ext l) :: Dict.mapVal m.ext e) (Dict.mapVal m.read t) = _) ∧ _
    have hsucc : ∀ (m1 : Mem σ) (t1 : Dict Ref), addEntryH R m t k (.ext l) = (m1, .ok t1) →
        OwnRefs m1 t1 → m1.ext = m.ext → m1.world = m.world →
        (addInto R ((k, m.ext l) :: Dict.mapVal m.ext e) (Dict.mapVal m.read t) =
          addInto R (Dict.mapVal m.ext e) (Dict.mapVal m1.read t1)) →
        ((addIntoH R ((k, Ref.ext l) :: Dict.mapVal Ref.ext e) m t).1.ext = m.ext) ∧
        ((addIntoH R ((k, Ref.ext l) :: Dict.mapVal Ref.ext e) m t).1.world = m.world) ∧
        (∀ err, (addIntoH R ((k, Ref.ext l) :: Dict.mapVal Ref.ext e) m t).2 = .error err →
          addInto R ((k, m.ext l) :: Dict.mapVal m.ext e) (Dict.mapVal m.read t) = .error err) ∧
        (∀ t', (addIntoH R ((k, Ref.ext l) :: Dict.mapVal Ref.ext e) m t).2 = .ok t' →
          OwnRefs (addIntoH R ((k, Ref.ext l) :: Dict.mapVal Ref.ext e) m t).1 t' ∧
          addInto R ((k, m.ext l) :: Dict.mapVal m.ext e) (Dict.mapVal m.read t) =
            .ok (Dict.mapVal (addIntoH R ((k, Ref.ext l) :: Dict.mapVal Ref.ext e) m t).1.read t')) := by
      intro m1 t1 he ho hx hw hadd
      obtain ⟨i1, i2, i3, i4⟩ := ih m1 t1 ho
      have hgo : addIntoH R ((k, Ref.ext l) :: Dict.mapVal Ref.ext e) m t =
          addIntoH R (Dict.mapVal Ref.ext e) m1 t1 := by
        show (match (addEntryH R m t k (.ext l)).2 with
          | .error e => _
          | .ok d1' => _) = _
        rw [he]
      rw [hgo, hadd, ← hx]
      exact ⟨i1, by rw [i2, hw], i3, i4⟩
    have hfail : ∀ err, addEntryH R m t k (.ext l) = (m, .error err) →
        addInto R ((k, m.ext l) :: Dict.mapVal m.ext e) (Dict.mapVal m.read t) = .error err →
        ((addIntoH R ((k, Ref.ext l) :: Dict.mapVal Ref.ext e) m t).1.ext = m.ext) ∧
        ((addIntoH R ((k, Ref.ext l) :: Dict.mapVal Ref.ext e) m t).1.world = m.world) ∧
        (∀ err, (addIntoH R ((k, Ref.ext l) :: Dict.mapVal Ref.ext e) m t).2 = .error err →
          addInto R ((k, m.ext l) :: Dict.mapVal m.ext e) (Dict.mapVal m.read t) = .error err) ∧
        (∀ t', (addIntoH R ((k, Ref.ext l) :: Dict.mapVal Ref.ext e) m t).2 = .ok t' →
          OwnRefs (addIntoH R ((k, Ref.ext l) :: Dict.mapVal Ref.ext e) m t).1 t' ∧
          addInto R ((k, m.ext l) :: Dict.mapVal m.ext e) (Dict.mapVal m.read t) =
            .ok (Dict.mapVal (addIntoH R ((k, Ref.ext l) :: Dict.mapVal Ref.ext e) m t).1.read t')) := by
      intro err he hadd
      have hgo : addIntoH R ((k, Ref.ext l) :: Dict.mapVal Ref.ext e) m t = (m, .error err) := by
        show (match (addEntryH R m t k (.ext l)).2 with
          | .error e => _
          | .ok d1' => _) = _
        rw [he]
      rw [hgo]
      exact ⟨rfl, rfl, fun err' h => (by cases h; exact hadd), fun t' h => (by cases h)⟩
    cases hg : t.get? k with
    | none =>
      obtain ⟨o1, o2⟩ := ownRefs_alloc h k (m.ext l)
      refine hsucc (m.alloc (m.ext l)).1 (t.set k (m.alloc (m.ext l)).2) ?_ o1 rfl rfl ?_
      · unfold addEntryH; rw [hg]; rfl
      · rw [o2]
        conv_lhs => unfold addInto
        rw [Dict.get?_mapVal, hg]
        rfl
    | some w =>
      have hgv : (Dict.mapVal m.read t).get? k = some (m.read w) := by rw [Dict.get?_mapVal, hg]; rfl
      have hadd : addInto R ((k, m.ext l) :: Dict.mapVal m.ext e) (Dict.mapVal m.read t) =
          match (m.read w).attrs.get? "units", (m.ext l).attrs.get? "units" with
          | some u, some _ => (m.ext l).toUnits R u >>= fun v' => (m.read w).add v' >>= fun s =>
              addInto R (Dict.mapVal m.ext e) ((Dict.mapVal m.read t).set k s)
          | _, _ => .error .invalidState := by
        conv_lhs => unfold addInto
        rw [hgv]
        rfl
      have hent : addEntryH R m t k (.ext l) =
          match (m.read w).attrs.get? "units", (m.ext l).attrs.get? "units" with
          | some u, some _ =>
            match ((m.ext l).toUnits R u >>= fun v => (m.read w).add v) with
            | .error e => (m, .error e)
            | .ok s =>
              if ∀ d ∈ (m.ext l).dims, d ∈ (m.read w).dims then (m.write w s, .ok (t.set k w))
              else ((m.alloc s).1, .ok (t.set k (m.alloc s).2))
          | _, _ => (m, .error .invalidState) := by
        conv_lhs => unfold addEntryH
        rw [hg]; rfl
      cases hu : (m.read w).attrs.get? "units" with
      | none =>
        rw [hu] at hadd hent
        exact hfail _ hent hadd
      | some u =>
        cases hv : (m.ext l).attrs.get? "units" with
        | none =>
          rw [hu, hv] at hadd hent
          exact hfail _ hent hadd
        | some v =>
          rw [hu, hv] at hadd hent
          dsimp only at hadd hent
          cases hs : ((m.ext l).toUnits R u >>= fun v => (m.read w).add v) with
          | error err =>
            rw [hs] at hent
            refine hfail err hent ?_
            rw [hadd]
            rcases Exc.bind_error_iff.1 hs with h' | ⟨v', h', h''⟩
            · rw [h']; rfl
            · rw [h', Exc.ok_bind, h'']; rfl
          | ok s =>
            rw [hs] at hent
            dsimp only at hent
            obtain ⟨v', h', h''⟩ := Exc.bind_ok_iff.1 hs
            rw [h', Exc.ok_bind, h'', Exc.ok_bind] at hadd
            by_cases hd : ∀ d ∈ (m.ext l).dims, d ∈ (m.read w).dims
            · rw [if_pos hd] at hent
              obtain ⟨o1, o2, o3, o4⟩ := ownRefs_write h hg s
              exact hsucc _ _ hent o1 o3 o4 (by rw [hadd, o2])
            · rw [if_neg hd] at hent
              obtain ⟨o1, o2⟩ := ownRefs_alloc h k s
              exact hsucc _ _ hent o1 rfl rfl (by rw [hadd, o2])

/-- The values a component returns, at the time it returns. -/
def HComp.values {σ : Type} (f : HComp σ) : σ × Ext → (σ × Ext) × Except Err TendOut := fun w =>
  ((f w).1, (f w).2 >>= fun r => .ok (Dict.mapVal (f w).1.2 r.1, Dict.mapVal (f w).1.2 r.2))

theorem compositeLoopH_spec {σ : Type} (R : Registry) (fs : List (HComp σ)) (m : Mem σ) (t d : Dict Ref)
    (dv : Dict DataArray) (h : OwnRefs m t) :
    (∃ pre, pre <+: fs ∧ ((compositeLoopH R fs m t d).1.world, (compositeLoopH R fs m t d).1.ext) =
      (runAll pre (m.world, m.ext)).1) ∧
    ((compositeLoopH R fs m t d).1.world, (compositeLoopH R fs m t d).1.ext) =
      (compositeLoop R (fs.map HComp.values) (m.world, m.ext) (Dict.mapVal m.read t) dv).1 ∧
    (∀ err, (compositeLoopH R fs m t d).2 = .error err →
      (compositeLoop R (fs.map HComp.values) (m.world, m.ext) (Dict.mapVal m.read t) dv).2 = .error err) ∧
    (∀ t' d', (compositeLoopH R fs m t d).2 = .ok (t', d') →
      OwnRefs (compositeLoopH R fs m t d).1 t' ∧
      (∃ rs, runAll fs (m.world, m.ext) =
        (((compositeLoopH R fs m t d).1.world, (compositeLoopH R fs m t d).1.ext), .ok rs)) ∧
      ∃ dv', (compositeLoop R (fs.map HComp.values) (m.world, m.ext) (Dict.mapVal m.read t) dv).2 =
        .ok (Dict.mapVal (compositeLoopH R fs m t d).1.read t', dv')) := by
  induction fs generalizing m t d dv with
  | nil =>
    refine ⟨⟨[], List.prefix_refl _, rfl⟩, rfl, fun err he => (by cases he), ?_⟩
    intro t' d' ht
    injection ht with ht
    injection ht with h1 h2
    subst h1 h2
    exact ⟨h, ⟨[], rfl⟩, dv, rfl⟩
  | cons f fs ih =>
    rw [List.map_cons]
    unfold compositeLoopH compositeLoop
    cases hr : (f (m.world, m.ext)).2 with
    | error e =>
      have hv : (HComp.values f (m.world, m.ext)).2 = .error e := by unfold HComp.values; rw [hr]; rfl
      rw [hv]
      dsimp only
      refine ⟨⟨[f], ?_, ?_⟩, rfl, fun err he => (by cases he; rfl), fun t' d' ht => (by cases ht)⟩
      · exact List.cons_prefix_cons.2 ⟨rfl, List.nil_prefix⟩
      · unfold runAll; rw [hr]
    | ok r =>
      have hv : (HComp.values f (m.world, m.ext)).2 =
          .ok (Dict.mapVal (f (m.world, m.ext)).1.2 r.1, Dict.mapVal (f (m.world, m.ext)).1.2 r.2) := by
        unfold HComp.values; rw [hr]; rfl
      rw [hv]
      dsimp only
      have hv1 : (HComp.values f (m.world, m.ext)).1 = (f (m.world, m.ext)).1 := rfl
      rw [hv1]
      generalize hm1 : (⟨(f (m.world, m.ext)).1.1, (f (m.world, m.ext)).1.2, m.own⟩ : Mem σ) = m1
      have hw1 : (f (m.world, m.ext)).1 = (m1.world, m1.ext) := by rw [← hm1]
      have ho1 : OwnRefs m1 t := by rw [← hm1]; exact h
      have hrd : Dict.mapVal m.read t = Dict.mapVal m1.read t := by
        apply mapVal_congr
        intro kv hkv
        obtain ⟨l, hl, _⟩ := h.1 kv hkv
        rw [hl, ← hm1]; rfl
      rw [hw1, hrd]
      obtain ⟨a1, a2, a3, a4⟩ := addIntoH_spec R r.1 m1 t ho1
      cases ha : (addIntoH R (Dict.mapVal Ref.ext r.1) m1 t).2 with
      | error e =>
        rw [a3 e ha]
        dsimp only
        rw [a1, a2]
        refine ⟨⟨[f], ?_, ?_⟩, rfl, fun err he => (by cases he; rfl), fun t' d' ht => (by cases ht)⟩
        · exact List.cons_prefix_cons.2 ⟨rfl, List.nil_prefix⟩
        · unfold runAll; rw [hr, hw1]; rfl
      | ok t1 =>
        obtain ⟨b1, b2⟩ := a4 t1 ha
        rw [b2]
        dsimp only
        obtain ⟨⟨pre, p1, p2⟩, i2, i3, i4⟩ := ih (addIntoH R (Dict.mapVal Ref.ext r.1) m1 t).1 t1
          (d.update (Dict.mapVal Ref.ext r.2)) (dv.update (Dict.mapVal m1.ext r.2)) b1
        rw [a1, a2] at i2 i3 i4 p2
        refine ⟨⟨f :: pre, List.cons_prefix_cons.2 ⟨rfl, p1⟩, ?_⟩, i2, i3, ?_⟩
        · rw [p2]
          conv_rhs => unfold runAll
          rw [hr, hw1]
          dsimp only
          cases (runAll pre (m1.world, m1.ext)).2 <;> rfl
        · intro t' d' ht
          obtain ⟨c1, ⟨rs, c2⟩, c3⟩ := i4 t' d' ht
          refine ⟨c1, ⟨r :: rs, ?_⟩, c3⟩
          conv_lhs => unfold runAll
          rw [hr, hw1]
          dsimp only
          rw [c2]

/-- **C30.**  Whatever arrays the components share, return repeatedly or keep: after a
call of a tendency composite the components' arrays (and everything else they have)
are exactly as the components' own calls left them, as if the composite had only called
them.  When the call raises, some of the components were called. -/
theorem composite_leaves_component_arrays {σ : Type} (R : Registry) (fs : List (HComp σ)) (w : σ) (ext : Ext) :
    (∃ pre, pre <+: fs ∧ ((compositeLoopH R fs ⟨w, ext, []⟩ [] []).1.world,
        (compositeLoopH R fs ⟨w, ext, []⟩ [] []).1.ext) = (runAll pre (w, ext)).1) ∧
    ∀ t d, (compositeLoopH R fs ⟨w, ext, []⟩ [] []).2 = .ok (t, d) →
      ((compositeLoopH R fs ⟨w, ext, []⟩ [] []).1.world,
        (compositeLoopH R fs ⟨w, ext, []⟩ [] []).1.ext) = (runAll fs (w, ext)).1 := by
  obtain ⟨h1, _, _, h4⟩ := compositeLoopH_spec R fs ⟨w, ext, []⟩ [] [] [] ⟨by simp, List.Pairwise.nil⟩
  refine ⟨h1, ?_⟩
  intro t d h
  obtain ⟨_, ⟨rs, h'⟩, _⟩ := h4 t d h
  rw [h']

/-- **C30, values.**  With all this sharing, the tendencies returned have the values
the array-as-value model `compositeLoop` gives (so C28 applies), and they are new
arrays, one for each quantity. -/
theorem composite_heap_refines {σ : Type} (R : Registry) (fs : List (HComp σ)) (w : σ) (ext : Ext) :
    (∀ err, (compositeLoopH R fs ⟨w, ext, []⟩ [] []).2 = .error err →
      (compositeLoop R (fs.map HComp.values) (w, ext) [] []).2 = .error err) ∧
    ∀ t d, (compositeLoopH R fs ⟨w, ext, []⟩ [] []).2 = .ok (t, d) →
      (∀ kv ∈ t, ∃ l, kv.2 = Ref.own l) ∧ t.Pairwise (fun a b => a.2 ≠ b.2) ∧
      ∃ dv, (compositeLoop R (fs.map HComp.values) (w, ext) [] []).2 =
        .ok (Dict.mapVal (compositeLoopH R fs ⟨w, ext, []⟩ [] []).1.read t, dv) := by
  obtain ⟨_, _, h3, h4⟩ := compositeLoopH_spec R fs ⟨w, ext, []⟩ [] [] [] ⟨by simp, List.Pairwise.nil⟩
  refine ⟨h3, ?_⟩
  intro t d h
  obtain ⟨h5, _, h6⟩ := h4 t d h
  refine ⟨?_, h5.2, h6⟩
  intro kv hkv
  obtain ⟨l, hl, _⟩ := h5.1 kv hkv
  exact ⟨l, hl⟩

/-- A component that keeps its array 0 and returns it for two quantities. -/
def Demo.keeper : HComp Nat := fun w => ((w.1 + 1, w.2), .ok ([("T", 0), ("S", 0)], []))

/-- Non-vacuity: called three times, the array kept is unchanged and both sums are right. -/
example : Exc.test (compositeLoopH Demo.reg [Demo.keeper, Demo.keeper, Demo.keeper]
      ⟨0, fun _ => Demo.prof, []⟩ [] []).2 (fun r => decide (r.1 = [("T", .own 0), ("S", .own 1)])) = true ∧
    ((compositeLoopH Demo.reg [Demo.keeper, Demo.keeper, Demo.keeper]
      ⟨0, fun _ => Demo.prof, []⟩ [] []).1.read (.own 1)).arr.get [2] = 9 ∧
    ((compositeLoopH Demo.reg [Demo.keeper, Demo.keeper, Demo.keeper]
      ⟨0, fun _ => Demo.prof, []⟩ [] []).1.ext 0).arr.get [2] = 3 := by decide +kernel

end Verif
