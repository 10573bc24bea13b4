import Verif.Lemmas.StepperMemory
import Verif.Spec.Demo
/-!
# C85: time steppers remember states by value
-/

namespace Verif

/-- Results of an AdamsBashforth as a function of what it was given in its calls. -/
def replayAB (R : Registry) : List Seen → AB → List (Except Err (Dict DataArray × State))
  | [], _ => []
  | s :: rest, ab =>
    let r := AB.call R (fun _ _ _ => ((), s.answer)) ab () s.state s.dt
    r.2.2 :: replayAB R rest r.1

/-- Caller's states and results of a Leapfrog as a function of what it was given. -/
def replayLF (R : Registry) : List Seen → LF → List (State × Except Err (Dict DataArray × State))
  | [], _ => []
  | s :: rest, lf =>
    let r := LF.call R (fun _ _ _ => ((), s.answer)) lf () s.state s.dt
    r.2.2 :: replayLF R rest r.1

/-- Everybody plays by the rules in a call: the arrays of the state exist, the
components leave them as they are, and return diagnostics that exist. -/
def Event.Fair {σ : Type} (R : Registry) (cs : List (RComp σ)) (e : Event σ) (m : SMem σ) : Prop :=
  let p := callComposite R cs (e.before m) e.state e.dt
  (∀ k l, (k, RVal.ref l) ∈ e.state → l < p.1.world.2 ∧ p.1.ext l = (e.before m).ext l) ∧
  ∀ r, p.2 = .ok r → ∀ k l, (k, Ref.ext l) ∈ r.2 → l < p.1.world.2

/-- All calls of a run of an AdamsBashforth are fair. -/
def ABH.Fair {σ : Type} (R : Registry) (cs : List (RComp σ)) : List (Event σ) → ABH → SMem σ → Prop
  | [], _, _ => True
  | e :: es, ab, m =>
    e.Fair R cs m ∧
    ABH.Fair R cs es (ABH.call R cs ab (e.before m) e.state e.dt).1 (ABH.call R cs ab (e.before m) e.state e.dt).2.1

/-- The array of a quantity that is stepped is not also the array of another quantity
of the state or of the state `old`, and not one of the diagnostics. -/
def Event.Apart {σ : Type} (R : Registry) (cs : List (RComp σ)) (e : Event σ) (m : SMem σ) (old : RState) : Prop :=
  e.state.keys.Nodup ∧
  ∀ r, (callComposite R cs (e.before m) e.state e.dt).2 = .ok r →
    ∀ k ∈ r.1.keys, ∀ l, e.state.get? k = some (.ref l) →
      (∀ k', e.state.get? k' = some (.ref l) ∨ old.get? k' = some (.ref l) → k' = k) ∧ ∀ k', (k', Ref.ext l) ∉ r.2

/-- All calls of a run of a Leapfrog are fair, and the arrays of the state of the last
successful call are as they were after that call (`last`) when the components have
returned in the next one. -/
def LFH.Fair {σ : Type} (R : Registry) (cs : List (RComp σ)) : List (Event σ) → LFH → SMem σ → Ext → Prop
  | [], _, _, _ => True
  | e :: es, lf, m, last =>
    let p := callComposite R cs (e.before m) e.state e.dt
    let r := LFH.call R cs lf (e.before m) e.state e.dt
    e.Fair R cs m ∧
    (∀ old, lf.old = some old → e.Apart R cs m old ∧
      ∀ k l, (k, RVal.ref l) ∈ old → l < p.1.world.2 ∧ p.1.ext l = last l) ∧
    LFH.Fair R cs es r.1 r.2.1 (match r.2.2 with | .ok _ => r.2.1.ext | .error _ => last)

/-! ## AdamsBashforth -/

/-- The stepper in memory is the stepper `v` of the model with arrays as values. -/
structure ABH.Holds {σ : Type} (ab : ABH) (m : SMem σ) (v : AB) : Prop where
  order : ab.order = v.order
  timestep : ab.timestep = v.timestep
  owned : ∀ t ∈ ab.hist, Owned m t
  hist : ab.hist.map (Dict.mapVal m.read) = v.hist

theorem ABH.Holds.mono {σ : Type} {ab : ABH} {m m' : SMem σ} {v : AB} (h : ab.Holds m v) (hk : KeepsOwn m m') :
    ab.Holds m' v := by
  refine ⟨h.order, h.timestep, fun t ht => (h.owned t ht).mono hk, ?_⟩
  rw [← h.hist]
  apply List.map_congr_left
  intro t ht
  exact hk.readDict (h.owned t ht)

theorem read_congr {ext ext' : Ext} {s : RState} (h : ∀ k l, (k, RVal.ref l) ∈ s → ext' l = ext l) :
    s.read ext' = s.read ext := by
  unfold RState.read Dict.mapVal
  apply List.map_congr_left
  rintro ⟨k, v⟩ hkv
  cases v with
  | time t => rfl
  | ref l =>
    show (k, Val.da (ext' l)) = (k, Val.da (ext l))
    rw [h k l hkv]

theorem ABH.call_refines {σ : Type} {R : Registry} {cs : List (RComp σ)} {ab : ABH} {v : AB} {e : Event σ}
    {m : SMem σ} (h : ab.Holds m v) (hf : e.Fair R cs m) :
    (ABH.call R cs ab (e.before m) e.state e.dt).1.Holds (ABH.call R cs ab (e.before m) e.state e.dt).2.1
      (AB.call R (fun _ _ _ => ((), (e.seen R cs m).answer)) v () (e.seen R cs m).state (e.seen R cs m).dt).1 ∧
    readResult (ABH.call R cs ab (e.before m) e.state e.dt).2.1 (ABH.call R cs ab (e.before m) e.state e.dt).2.2 =
      (AB.call R (fun _ _ _ => ((), (e.seen R cs m).answer)) v () (e.seen R cs m).state (e.seen R cs m).dt).2.2 := by
  have hb : KeepsOwn m (e.before m) := List.prefix_refl _
  obtain ⟨hf1, hf2⟩ := hf
  obtain ⟨c1, c2⟩ := callComposite_spec R cs (e.before m) e.state e.dt
  unfold ABH.call AB.call
  rw [h.timestep]
  show _ ∧ readResult _ _ = _
  have hdt : (e.seen R cs m).dt = e.dt := rfl
  have hst : (e.seen R cs m).state = e.state.read (e.before m).ext := rfl
  rw [hdt, hst]
  by_cases ht : v.timestep = none ∨ v.timestep = some e.dt
  swap
  · rw [if_neg ht, if_neg ht]
    exact ⟨h.mono hb, rfl⟩
  rw [if_pos ht, if_pos ht]
  have hans : (e.seen R cs m).answer = ((callComposite R cs (e.before m) e.state e.dt).2 >>= fun r =>
    .ok (Dict.mapVal (callComposite R cs (e.before m) e.state e.dt).1.read r.1,
      Dict.mapVal (callComposite R cs (e.before m) e.state e.dt).1.read r.2)) := rfl
  rw [hans]
  rcases hz : callComposite R cs (e.before m) e.state e.dt with ⟨m1, (err | ⟨t, d⟩)⟩
  · rw [hz] at c1
    refine ⟨⟨h.order, rfl, ?_, ?_⟩, rfl⟩
    · exact (h.mono (hb.trans c1)).owned
    · exact (h.mono (hb.trans c1)).hist
  · rw [hz] at c1 c2 hf1 hf2
    dsimp only at c1 c2 hf1 hf2 ⊢
    obtain ⟨o1, _, o3⟩ := c2 _ rfl
    dsimp only at o1 o3
    rw [Exc.ok_bind]
    dsimp only
    have hread : e.state.read m1.ext = e.state.read (e.before m).ext := read_congr (fun k l hkl => (hf1 k l hkl).2)
    obtain ⟨d1, d2, d3, d4, d5⟩ := convertH_spec R e.state t m1 o1
    rw [hread] at d4 d5
    have hm1 := h.mono (hb.trans c1)
    rcases hy : convertH R e.state t m1 with ⟨m2, (err | t')⟩
    · rw [hy] at d1 d4
      rw [d4 err rfl]
      have hm2 := hm1.mono d1
      exact ⟨⟨h.order, rfl, hm2.owned, hm2.hist⟩, rfl⟩
    · rw [hy] at d1 d2 d3 d5
      dsimp only at d1 d2 d3 d5 ⊢
      obtain ⟨p1, p2⟩ := d5 t' rfl
      have hm2 := hm1.mono d1
      rw [p2]
      dsimp only
      have hmap : (ab.hist ++ [t']).map (Dict.mapVal m2.read) = v.hist ++ [Dict.mapVal m2.read t'] := by
        rw [List.map_append, hm2.hist]; rfl
      have howned : ∀ x ∈ ab.hist ++ [t'], Owned m2 x := by
        intro x hx
        rcases List.mem_append.1 hx with hx | hx
        · exact hm2.owned x hx
        · rw [List.mem_singleton.1 hx]; exact p1
      rw [hmap, d2, hread, h.order]
      cases hp : performStep v.order (v.hist ++ [Dict.mapVal m2.read t']) (e.state.read (e.before m).ext) e.dt with
      | error err => exact ⟨⟨rfl, rfl, howned, hmap⟩, rfl⟩
      | ok new =>
        dsimp only
        obtain ⟨a1, a2, a3, a4⟩ := allocState_spec new m2
        have hk3 : KeepsOwn m2 (allocState new m2).1 := by
          unfold KeepsOwn; rw [a2]; exact List.prefix_refl _
        have hlen : (ab.hist ++ [t']).length = (v.hist ++ [Dict.mapVal m2.read t']).length := by
          rw [← hmap, List.length_map]
        refine ⟨?_, ?_⟩
        · rw [hlen]
          by_cases hl : (v.hist ++ [Dict.mapVal m2.read t']).length = v.order
          · rw [if_pos hl, if_pos hl]
            refine ABH.Holds.mono (m := m2) ⟨rfl, rfl, ?_, ?_⟩ hk3
            · intro x hx
              exact howned x (List.mem_of_mem_tail hx)
            · show ((ab.hist ++ [t']).tail).map (Dict.mapVal m2.read) = (v.hist ++ [Dict.mapVal m2.read t']).tail
              rw [List.map_tail, hmap]
          · rw [if_neg hl, if_neg hl]
            exact ABH.Holds.mono (m := m2) ⟨rfl, rfl, howned, hmap⟩ hk3
        · have hext : ∀ l, l < m1.world.2 → (allocState new m2).1.ext l = m1.ext l := by
            intro l hl
            rw [a3 l (by rw [d3]; exact hl), d2]
          have e1 : Dict.mapVal (allocState new m2).1.read d = Dict.mapVal m1.read d := by
            apply mapVal_congr
            rintro ⟨k, r⟩ hkv
            obtain ⟨l, hl⟩ := o3 _ hkv
            dsimp only at hl
            subst hl
            exact hext l (hf2 _ rfl k l hkv)
          have e2 : (copyUntouchedR e.state (allocState new m2).2).read (allocState new m2).1.ext =
              copyUntouched (e.state.read (e.before m).ext) new := by
            rw [read_copyUntouchedR, a1]
            congr 1
            rw [← hread]
            exact read_congr (fun k l hkl => hext l (hf1 k l hkl).1)
          show Except.ok (_, _) = Except.ok (_, _)
          rw [e1, e2]

theorem ABH.run_refines {σ : Type} {R : Registry} {cs : List (RComp σ)} (es : List (Event σ)) {ab : ABH} {v : AB}
    {m : SMem σ} (h : ab.Holds m v) (hf : ABH.Fair R cs es ab m) :
    (ABH.run R cs es ab m).map (·.2) = replayAB R ((ABH.run R cs es ab m).map (·.1)) v := by
  induction es generalizing ab v m with
  | nil => rfl
  | cons e es ih =>
    obtain ⟨h1, h2⟩ := ABH.call_refines h hf.1
    show _ :: _ = _ :: _
    rw [h2]
    congr 1
    exact ih h1 hf.2

/-- **C85, AdamsBashforth.**  Whatever the caller does to any array between the calls,
and whatever the components do to arrays other than those of the state they are given,
the results of all calls are what one gets from the contents of the states when they
were passed and what the components answered, with arrays as values. -/
theorem ab_remembers_values {σ : Type} (R : Registry) (cs : List (RComp σ)) (es : List (Event σ)) (order : Nat)
    (w : σ × Nat) (ext : Ext) (hf : ABH.Fair R cs es { order := order } ⟨w, ext, []⟩) :
    (ABH.run R cs es { order := order } ⟨w, ext, []⟩).map (·.2) =
      replayAB R ((ABH.run R cs es { order := order } ⟨w, ext, []⟩).map (·.1)) { order := order } :=
  ABH.run_refines es ⟨rfl, rfl, by simp, rfl⟩ hf

/-! ## Leapfrog -/

/-- Changing the array of one quantity in place. -/
theorem read_write_ext {s : RState} {ext : Ext} {k : String} {l : Nat} (a : DataArray) (hn : s.keys.Nodup)
    (hk : s.get? k = some (.ref l)) (hap : ∀ k', s.get? k' = some (.ref l) → k' = k) :
    s.read (fun j => if j = l then a else ext j) = Dict.set (s.read ext) k (.da a) := by
  have hoth : ∀ (s : RState), (∀ k' , (k', RVal.ref l) ∉ s) →
      s.read (fun j => if j = l then a else ext j) = s.read ext := by
    intro s hs
    apply read_congr
    intro k' l' hkl
    have : l' ≠ l := by rintro rfl; exact hs k' hkl
    rw [if_neg this]
  induction s with
  | nil => cases hk
  | cons kv s ih =>
    obtain ⟨k0, v0⟩ := kv
    have hn' : k0 ∉ Dict.keys s ∧ (Dict.keys s).Nodup := List.nodup_cons.1 hn
    rw [Dict.get?_cons] at hk
    by_cases h0 : k0 = k
    · subst h0
      rw [if_pos rfl] at hk
      cases hk
      show (k0, Val.da (if l = l then a else ext l)) :: RState.read _ s =
        Dict.set ((k0, Val.da (ext l)) :: RState.read ext s) k0 (.da a)
      rw [if_pos rfl, Dict.set, if_pos rfl, hoth]
      intro k' hk'
      have hm : k' ∈ Dict.keys s := Dict.mem_keys_of_mem hk'
      have hne : k0 ≠ k' := by rintro rfl; exact hn'.1 hm
      have := hap k' (by
        rw [Dict.get?_cons, if_neg hne]
        exact Dict.get?_of_mem hn'.2 hk')
      exact hne this.symm
    · rw [if_neg h0] at hk
      have hv0 : v0 ≠ .ref l := by
        rintro rfl
        exact h0 (hap k0 (by rw [Dict.get?_cons, if_pos rfl]))
      have hr0 : RVal.read (fun j => if j = l then a else ext j) v0 = RVal.read ext v0 := by
        cases v0 with
        | time t => rfl
        | ref l' =>
          have : l' ≠ l := by rintro rfl; exact hv0 rfl
          show Val.da (if l' = l then a else ext l') = _
          rw [if_neg this]; rfl
      show (k0, RVal.read _ v0) :: RState.read _ s = Dict.set ((k0, RVal.read ext v0) :: RState.read ext s) k (.da a)
      rw [Dict.set, if_neg h0, hr0]
      congr 1
      refine ih hn'.2 hk ?_
      intro k' hk'
      have hne : k0 ≠ k' := by
        rintro rfl
        exact hn'.1 (Dict.mem_keys_of_get? hk')
      exact hap k' (by rw [Dict.get?_cons, if_neg hne]; exact hk')

theorem da_read {ext : Ext} {s : RState} {k : String} :
    State.da (s.read ext) k = match s.get? k with
      | some (.ref l) => .ok (ext l)
      | some (.time _) => .error .attributeError
      | none => .error .keyError := by
  unfold State.da RState.read
  rw [Dict.get?_mapVal]
  cases s.get? k with
  | none => rfl
  | some v => cases v <;> rfl

theorem stepLeapfrogH_spec {σ : Type} {a b : Rat} {old state : RState} {t : Dict Ref} {dt : Int} {n0 : Nat}
    {oldV : State} {tv : Dict DataArray}
    (hn : state.keys.Nodup)
    (hs0 : ∀ k l, (k, RVal.ref l) ∈ state → l < n0) (ho0 : ∀ k l, (k, RVal.ref l) ∈ old → l < n0)
    (ks : List String) (m : SMem σ) (new : RState) (hks : ks.Nodup)
    (hap : ∀ k ∈ ks, ∀ l, state.get? k = some (.ref l) →
      ∀ k', state.get? k' = some (.ref l) ∨ old.get? k' = some (.ref l) → k' = k) (hm : n0 ≤ m.world.2) (ht : Owned m t)
    (htv : Dict.mapVal m.read t = tv)
    (hnew : ∀ k l, (k, RVal.ref l) ∈ new → n0 ≤ l ∧ l < m.world.2)
    (hold : ∀ k ∈ ks, State.da (old.read m.ext) k = State.da oldV k) :
    state.read (stepLeapfrogH a b old state t dt ks m new).1.ext =
      (stepLeapfrog a b oldV tv dt ks (state.read m.ext) (new.read m.ext)).1 ∧
    (stepLeapfrogH a b old state t dt ks m new).1.own = m.own ∧
    (∀ l, l < n0 → (∀ k ∈ ks, state.get? k ≠ some (.ref l)) →
      (stepLeapfrogH a b old state t dt ks m new).1.ext l = m.ext l) ∧
    m.world.2 ≤ (stepLeapfrogH a b old state t dt ks m new).1.world.2 ∧
    ((stepLeapfrogH a b old state t dt ks m new).2 >>= fun r =>
        .ok (r.read (stepLeapfrogH a b old state t dt ks m new).1.ext)) =
      (stepLeapfrog a b oldV tv dt ks (state.read m.ext) (new.read m.ext)).2 := by
  induction ks generalizing m new with
  | nil => exact ⟨rfl, rfl, fun _ _ _ => rfl, le_refl _, rfl⟩
  | cons k ks ih =>
    have hks' := List.nodup_cons.1 hks
    have hget : (t.get k >>= fun r => (.ok (m.read r) : Except Err DataArray)) = tv.get k := by
      rw [← htv]
      unfold Dict.get
      rw [Dict.get?_mapVal]
      cases t.get? k <;> rfl
    have hentry : (State.da (old.read m.ext) k >>= fun o => State.da (state.read m.ext) k >>= fun x =>
        t.get k >>= fun r => leapfrogEntry a b o x (m.read r) dt) =
        (State.da oldV k >>= fun o => State.da (state.read m.ext) k >>= fun x =>
        tv.get k >>= fun v => leapfrogEntry a b o x v dt) := by
      rw [hold k (by simp), ← hget]
      cases t.get k <;> rfl
    rw [stepLeapfrogH, stepLeapfrog, hentry]
    cases he : (State.da oldV k >>= fun o => State.da (state.read m.ext) k >>= fun x =>
        tv.get k >>= fun v => leapfrogEntry a b o x v dt) with
    | error e => exact ⟨rfl, rfl, fun _ _ _ => rfl, le_refl _, rfl⟩
    | ok r =>
      dsimp only
      obtain ⟨o, _, he⟩ := Exc.bind_ok_iff.1 he
      obtain ⟨x, hx, he⟩ := Exc.bind_ok_iff.1 he
      rw [da_read] at hx
      cases hl : state.get? k with
      | none => rw [hl] at hx; cases hx
      | some v =>
        cases v with
        | time _ => rw [hl] at hx; cases hx
        | ref l =>
          dsimp only
          have hln : l < n0 := hs0 k l (Dict.mem_of_get? hl)
          have hw : state.read (m.write (.ext l) r.1).ext = Dict.set (state.read m.ext) k (.da r.1) :=
            read_write_ext r.1 hn hl (fun k' hk' => hap k (by simp) l hl k' (Or.inl hk'))
          have hnw : new.read (m.write (.ext l) r.1).ext = new.read m.ext := by
            apply read_congr
            intro k' l' hkl
            have := (hnew k' l' hkl).1
            show (if l' = l then r.1 else m.ext l') = _
            rw [if_neg (by omega)]
          cases hr : r.2 with
          | error e =>
            refine ⟨hw, rfl, ?_, le_refl _, rfl⟩
            intro j hj hjs
            have : j ≠ l := by rintro rfl; exact hjs k (by simp) hl
            show (if j = l then r.1 else m.ext j) = _
            rw [if_neg this]
          | ok n =>
            dsimp only
            generalize hm1 : SMem.new (m.write (.ext l) r.1) n = p
            have hp2 : p.2 = m.world.2 := by rw [← hm1]; rfl
            have hpw : p.1.world.2 = m.world.2 + 1 := by rw [← hm1]; rfl
            have hpo : p.1.own = m.own := by rw [← hm1]; rfl
            have hpx : ∀ j, p.1.ext j = if j = m.world.2 then n else if j = l then r.1 else m.ext j := by
              intro j; rw [← hm1]; rfl
            have hst : state.read p.1.ext = Dict.set (state.read m.ext) k (.da r.1) := by
              rw [← hw]
              apply read_congr
              intro k' l' hkl
              have := hs0 k' l' hkl
              rw [hpx, if_neg (by omega)]
              rfl
            have hnew' : RState.read p.1.ext (Dict.set new k (.ref p.2)) = Dict.set (new.read m.ext) k (.da n) := by
              show Dict.mapVal _ (Dict.set new k (.ref p.2)) = _
              rw [mapVal_set]
              congr 1
              · rw [← hnw]
                apply read_congr
                intro k' l' hkl
                have := (hnew k' l' hkl).2
                rw [hpx, if_neg (by omega)]
                rfl
              · show Val.da (p.1.ext p.2) = _
                rw [hpx, hp2, if_pos rfl]
            obtain ⟨i1, i2, i3, i4, i5⟩ := ih p.1 (Dict.set new k (.ref p.2)) hks'.2
              (fun k' hk' => hap k' (List.mem_cons_of_mem _ hk')) (by omega)
              (by intro kv hkv; rw [hpo]; exact ht kv hkv)
              (by
                rw [← htv]
                apply mapVal_congr
                intro kv hkv
                obtain ⟨j, hj, _⟩ := ht kv hkv
                rw [hj]
                show p.1.own.getD j _ = m.own.getD j _
                rw [hpo])
              (by
                intro k' l' hkl
                rcases Dict.mem_set hkl with hkl | hkl
                · have := hnew k' l' hkl
                  omega
                · cases hkl
                  omega)
              (by
                intro k' hk'
                rw [← hold k' (List.mem_cons_of_mem _ hk'), da_read, da_read]
                cases hg : old.get? k' with
                | none => rfl
                | some v =>
                  cases v with
                  | time _ => rfl
                  | ref j =>
                    have h1 := ho0 k' j (Dict.mem_of_get? hg)
                    have h2 : j ≠ l := by
                      rintro rfl
                      have := hap k (by simp) j hl k' (Or.inr hg)
                      subst this
                      exact hks'.1 hk'
                    show Except.ok (p.1.ext j) = Except.ok (m.ext j)
                    rw [hpx, if_neg (by omega), if_neg h2])
            rw [hst, hnew'] at i1 i5
            refine ⟨i1, by rw [i2, hpo], ?_, by omega, i5⟩
            intro j hj hjs
            rw [i3 j hj (fun k' hk' => hjs k' (List.mem_cons_of_mem _ hk')), hpx, if_neg (by omega), if_neg]
            rintro rfl
            exact hjs k (by simp) hl

/-- The stepper in memory is the stepper `v`, with the arrays of the last state as in
`last`. -/
structure LFH.Holds (lf : LFH) (last : Ext) (v : LF) : Prop where
  strength : lf.strength = v.strength
  alpha : lf.alpha = v.alpha
  timestep : lf.timestep = v.timestep
  old : lf.old.map (RState.read last) = v.old

theorem LFH.call_refines {σ : Type} {R : Registry} {cs : List (RComp σ)} {lf : LFH} {v : LF} {e : Event σ}
    {m : SMem σ} {last : Ext} (h : lf.Holds last v) (hf : e.Fair R cs m)
    (ho : ∀ old, lf.old = some old → e.Apart R cs m old ∧
      ∀ k l, (k, RVal.ref l) ∈ old → l < (callComposite R cs (e.before m) e.state e.dt).1.world.2 ∧
        (callComposite R cs (e.before m) e.state e.dt).1.ext l = last l) :
    (LFH.call R cs lf (e.before m) e.state e.dt).1.Holds
      (match (LFH.call R cs lf (e.before m) e.state e.dt).2.2 with
        | .ok _ => (LFH.call R cs lf (e.before m) e.state e.dt).2.1.ext
        | .error _ => last)
      (LF.call R (fun _ _ _ => ((), (e.seen R cs m).answer)) v () (e.seen R cs m).state (e.seen R cs m).dt).1 ∧
    e.state.read (LFH.call R cs lf (e.before m) e.state e.dt).2.1.ext =
      (LF.call R (fun _ _ _ => ((), (e.seen R cs m).answer)) v () (e.seen R cs m).state (e.seen R cs m).dt).2.2.1 ∧
    readResult (LFH.call R cs lf (e.before m) e.state e.dt).2.1 (LFH.call R cs lf (e.before m) e.state e.dt).2.2 =
      (LF.call R (fun _ _ _ => ((), (e.seen R cs m).answer)) v () (e.seen R cs m).state (e.seen R cs m).dt).2.2.2 := by
  obtain ⟨hf1, hf2⟩ := hf
  obtain ⟨c1, c2⟩ := callComposite_spec R cs (e.before m) e.state e.dt
  have hdt : (e.seen R cs m).dt = e.dt := rfl
  have hst : (e.seen R cs m).state = e.state.read (e.before m).ext := rfl
  have hans : (e.seen R cs m).answer = ((callComposite R cs (e.before m) e.state e.dt).2 >>= fun r =>
    .ok (Dict.mapVal (callComposite R cs (e.before m) e.state e.dt).1.read r.1,
      Dict.mapVal (callComposite R cs (e.before m) e.state e.dt).1.read r.2)) := rfl
  unfold LFH.call LF.call
  rw [h.timestep, hdt, hst, hans]
  by_cases ht : v.timestep = none ∨ v.timestep = some e.dt
  swap
  · rw [if_neg ht, if_neg ht]
    exact ⟨h, rfl, rfl⟩
  rw [if_pos ht, if_pos ht]
  unfold Event.Apart at ho
  rcases hz : callComposite R cs (e.before m) e.state e.dt with ⟨m1, (err | ⟨t, d⟩)⟩
  · rw [hz] at hf1
    dsimp only at hf1
    have hread : e.state.read m1.ext = e.state.read (e.before m).ext := read_congr (fun k l hkl => (hf1 k l hkl).2)
    exact ⟨⟨h.strength, h.alpha, rfl, h.old⟩, hread, rfl⟩
  · rw [hz] at c1 c2 hf1 hf2 ho
    dsimp only at c1 c2 hf1 hf2 ho ⊢
    obtain ⟨o1, o2, o3⟩ := c2 _ rfl
    dsimp only at o1 o2 o3
    rw [Exc.ok_bind]
    dsimp only
    have hread : e.state.read m1.ext = e.state.read (e.before m).ext := read_congr (fun k l hkl => (hf1 k l hkl).2)
    obtain ⟨d1, d2, d3, d4, d5⟩ := convertH_spec R e.state t m1 o1
    rw [hread] at d4 d5
    rcases hy : convertH R e.state t m1 with ⟨m2, (err | t')⟩
    · rw [hy] at d2 d4
      rw [d4 err rfl]
      dsimp only at d2 ⊢
      exact ⟨⟨h.strength, h.alpha, rfl, h.old⟩, by rw [d2, hread], rfl⟩
    · rw [hy] at d1 d2 d3 d5
      dsimp only at d1 d2 d3 d5 ⊢
      obtain ⟨p1, p2⟩ := d5 t' rfl
      have hkeys : t'.keys = t.keys := by
        have := (convertTendencies_ok p2).1
        rw [Dict.keys_mapVal, Dict.keys_mapVal] at this
        exact this
      rw [p2]
      dsimp only
      have hold := h.old
      cases hlo : lf.old with
      | none =>
        rw [hlo] at hold
        rw [← hold]
        dsimp only [Option.map]
        rw [d2, hread]
        cases hp : stepEuler (e.state.read (e.before m).ext) (Dict.mapVal m2.read t') e.dt with
        | error err => exact ⟨⟨h.strength, h.alpha, rfl, rfl⟩,
            by rw [← hread, d2], rfl⟩
        | ok new =>
          dsimp only
          obtain ⟨a1, a2, a3, a4⟩ := allocState_spec new m2
          have hext : ∀ l, l < m1.world.2 → (allocState new m2).1.ext l = m1.ext l := by
            intro l hl
            rw [a3 l (by rw [d3]; exact hl), d2]
          have e0 : e.state.read (allocState new m2).1.ext = e.state.read (e.before m).ext := by
            rw [← hread]
            exact read_congr (fun k l hkl => hext l (hf1 k l hkl).1)
          have e1 : Dict.mapVal (allocState new m2).1.read d = Dict.mapVal m1.read d := by
            apply mapVal_congr
            rintro ⟨k, r⟩ hkv
            obtain ⟨l, hl⟩ := o3 _ hkv
            dsimp only at hl
            subst hl
            exact hext l (hf2 _ rfl k l hkv)
          refine ⟨⟨h.strength, h.alpha, rfl, ?_⟩, e0, ?_⟩
          · show some (RState.read _ e.state) = some _
            rw [e0]
          · show Except.ok (_, _) = Except.ok (_, _)
            rw [e1, read_copyUntouchedR, a1, e0]
      | some old =>
        rw [hlo] at hold
        rw [← hold]
        dsimp only [Option.map]
        obtain ⟨⟨hn, hap⟩, hkeep⟩ := ho old hlo
        have hap' := hap _ rfl
        dsimp only at hap'
        obtain ⟨s1, s2, s3, s4, s5⟩ := stepLeapfrogH_spec (σ := σ) (a := lf.strength) (b := lf.alpha) (old := old)
          (state := e.state) (t := t') (dt := e.dt) (n0 := m1.world.2) (oldV := old.read last) hn
          (fun k l hkl => (hf1 k l hkl).1) (fun k l hkl => (hkeep k l hkl).1) t'.keys m2 [] (by rw [hkeys]; exact o2)
          (fun k hk l hl => (hap' k (by rw [← hkeys]; exact hk) l hl).1) (by rw [d3]) p1 rfl
          (fun k l hkl => (by cases hkl))
          (by
            intro k _
            have : old.read m2.ext = old.read last := read_congr (fun k l hkl => by rw [d2]; exact (hkeep k l hkl).2)
            rw [this])
        rw [d2, hread] at s1 s5
        rw [← h.strength, ← h.alpha, Dict.keys_mapVal]
        have hemp : RState.read m1.ext [] = [] := rfl
        rw [hemp] at s1 s5
        rw [← s1, ← s5]
        rcases hx : stepLeapfrogH lf.strength lf.alpha old e.state t' e.dt t'.keys m2 [] with ⟨m3, (err | new)⟩
        · exact ⟨⟨rfl, rfl, rfl, rfl⟩, rfl, rfl⟩
        · rw [hx] at s1 s2 s3
          dsimp only at s1 s2 s3 ⊢
          refine ⟨⟨rfl, rfl, rfl, rfl⟩, rfl, ?_⟩
          have e1 : Dict.mapVal m3.read d = Dict.mapVal m1.read d := by
            apply mapVal_congr
            rintro ⟨k, r⟩ hkv
            obtain ⟨l, hl⟩ := o3 _ hkv
            dsimp only at hl
            subst hl
            show m3.ext l = m1.ext l
            rw [s3 l (hf2 _ rfl k l hkv), d2]
            intro k' hk' hg
            exact (hap' k' (by rw [← hkeys]; exact hk') l hg).2 k hkv
          show Except.ok (_, _) = Except.ok (_, _)
          rw [e1, read_copyUntouchedR]

theorem LFH.run_refines {σ : Type} {R : Registry} {cs : List (RComp σ)} (es : List (Event σ)) {lf : LFH} {v : LF}
    {m : SMem σ} {last : Ext} (h : lf.Holds last v) (hf : LFH.Fair R cs es lf m last) :
    (LFH.run R cs es lf m).map (·.2) = replayLF R ((LFH.run R cs es lf m).map (·.1)) v := by
  induction es generalizing lf v m last with
  | nil => rfl
  | cons e es ih =>
    obtain ⟨h1, h2, h3⟩ := LFH.call_refines h hf.1 hf.2.1
    show _ :: _ = _ :: _
    congr 1
    · exact Prod.ext h2 h3
    · exact ih h1 hf.2.2

/-- **C85, Leapfrog.**  If nobody changes the arrays of the last state until the next
call has returned, and no array of a stepped quantity is used for anything else in the
state or returned as a diagnostic, then results and changes to the caller's states are
what one gets with arrays as values from the contents of the states when they were
passed and what the components answered. -/
theorem leapfrog_remembers_partial {σ : Type} (R : Registry) (cs : List (RComp σ)) (es : List (Event σ))
    (strength alpha : Rat) (w : σ × Nat) (ext last : Ext)
    (hf : LFH.Fair R cs es { strength := strength, alpha := alpha } ⟨w, ext, []⟩ last) :
    (LFH.run R cs es { strength := strength, alpha := alpha } ⟨w, ext, []⟩).map (·.2) =
      replayLF R ((LFH.run R cs es { strength := strength, alpha := alpha } ⟨w, ext, []⟩).map (·.1))
        { strength := strength, alpha := alpha } :=
  LFH.run_refines es ⟨rfl, rfl, rfl, rfl⟩ hf

/-! ## What a call changes -/

/-- **C85, in a call of AdamsBashforth** no array that exists changes after the
components have returned. -/
theorem ab_changes_no_array {σ : Type} (R : Registry) (cs : List (RComp σ)) (ab : ABH) (m : SMem σ) (state : RState)
    (dt : Int) (hdt : ab.timestep = none ∨ ab.timestep = some dt) (l : Nat)
    (hl : l < (callComposite R cs m state dt).1.world.2) :
    (ABH.call R cs ab m state dt).2.1.ext l = (callComposite R cs m state dt).1.ext l := by
  obtain ⟨c1, c2⟩ := callComposite_spec R cs m state dt
  unfold ABH.call
  rw [if_pos hdt]
  rcases hz : callComposite R cs m state dt with ⟨m1, (err | ⟨t, d⟩)⟩
  · rfl
  · rw [hz] at hl c2
    dsimp only at hl c2 ⊢
    obtain ⟨_, d2, d3, _, _⟩ := convertH_spec R state t m1 (c2 _ rfl).1
    rcases hy : convertH R state t m1 with ⟨m2, (err | t')⟩
    · rw [hy] at d2
      dsimp only at d2 ⊢
      rw [d2]
    · rw [hy] at d2 d3
      dsimp only at d2 d3 ⊢
      split
      · dsimp only; rw [d2]
      · rename_i new _
        dsimp only
        rw [(allocState_spec new m2).2.2.1 l (by rw [d3]; exact hl), d2]

theorem stepLeapfrogH_frame {σ : Type} (a b : Rat) (old state : RState) (t : Dict Ref) (dt : Int) (ks : List String)
    (m : SMem σ) (new : RState) (l : Nat) (hl : l < m.world.2) (hk : ∀ k ∈ ks, state.get? k ≠ some (.ref l)) :
    (stepLeapfrogH a b old state t dt ks m new).1.ext l = m.ext l := by
  induction ks generalizing m new with
  | nil => rfl
  | cons k ks ih =>
    rw [stepLeapfrogH]
    split
    · rfl
    · rename_i r _
      split
      · rename_i j hj
        have hne : l ≠ j := by rintro rfl; exact hk k (by simp) hj
        have hw : (m.write (.ext j) r.1).ext l = m.ext l := by
          show (if l = j then r.1 else m.ext l) = _
          rw [if_neg hne]
        split
        · exact hw
        · rename_i n _
          rw [ih _ _ (by show l < m.world.2 + 1; omega) (fun k' hk' => hk k' (List.mem_cons_of_mem _ hk')), ← hw]
          show (if l = m.world.2 then n else (m.write (.ext j) r.1).ext l) = _
          rw [if_neg (by omega)]
      · rfl

/-- **C85, in a call of Leapfrog** only the arrays of stepped quantities in the caller's
state change after the components have returned, and none in the first call. -/
theorem leapfrog_changes_stepped {σ : Type} (R : Registry) (cs : List (RComp σ)) (lf : LFH) (m : SMem σ)
    (state : RState) (dt : Int) (hdt : lf.timestep = none ∨ lf.timestep = some dt) (l : Nat)
    (hl : l < (callComposite R cs m state dt).1.world.2)
    (hk : lf.old = none ∨ ∀ r, (callComposite R cs m state dt).2 = .ok r →
      ∀ k ∈ r.1.keys, state.get? k ≠ some (.ref l)) :
    (LFH.call R cs lf m state dt).2.1.ext l = (callComposite R cs m state dt).1.ext l := by
  obtain ⟨c1, c2⟩ := callComposite_spec R cs m state dt
  unfold LFH.call
  rw [if_pos hdt]
  rcases hz : callComposite R cs m state dt with ⟨m1, (err | ⟨t, d⟩)⟩
  · rfl
  · rw [hz] at hl c2 hk
    dsimp only at hl c2 hk ⊢
    obtain ⟨_, d2, d3, _, d5⟩ := convertH_spec R state t m1 (c2 _ rfl).1
    rcases hy : convertH R state t m1 with ⟨m2, (err | t')⟩
    · rw [hy] at d2
      dsimp only at d2 ⊢
      rw [d2]
    · rw [hy] at d2 d3 d5
      dsimp only at d2 d3 d5 ⊢
      have hkeys : t'.keys = t.keys := by
        have := (convertTendencies_ok (d5 t' rfl).2).1
        rw [Dict.keys_mapVal, Dict.keys_mapVal] at this
        exact this
      cases ho : lf.old with
      | none =>
        dsimp only
        split
        · dsimp only; rw [d2]
        · rename_i new _
          dsimp only
          rw [(allocState_spec new m2).2.2.1 l (by rw [d3]; exact hl), d2]
      | some old =>
        have hk' : ∀ k ∈ t'.keys, state.get? k ≠ some (.ref l) := by
          rcases hk with hk | hk
          · rw [ho] at hk; cases hk
          · rw [hkeys]; exact hk _ rfl
        have hfr := stepLeapfrogH_frame lf.strength lf.alpha old state t' dt t'.keys m2 [] l
          (by rw [d3]; exact hl) hk'
        rw [d2] at hfr
        dsimp only
        rcases hx : stepLeapfrogH lf.strength lf.alpha old state t' dt t'.keys m2 [] with ⟨m3, (err | new)⟩ <;>
          (rw [hx] at hfr; exact hfr)

/-! ## Examples and counterexamples -/

/-- Components that change no array and make none leave the memory as it is. -/
theorem callComposite_quiet {σ : Type} {R : Registry} {cs : List (RComp σ)}
    (hq : ∀ f ∈ cs, ∀ s dt w, (f s dt w).1 = w) (m : SMem σ) (state : RState) (dt : Int) :
    (callComposite R cs m state dt).1.ext = m.ext ∧ (callComposite R cs m state dt).1.world = m.world := by
  obtain ⟨⟨pre, hp, he⟩, _⟩ := compositeLoopH_spec R (cs.map (fun f => f state dt)) m [] [] []
    ⟨fun kv hkv => (by cases hkv), List.Pairwise.nil⟩
  have hrun : ∀ (fs : List (HComp (σ × Nat))), (∀ f ∈ fs, ∀ w, (f w).1 = w) → ∀ w, (runAll fs w).1 = w := by
    intro fs
    induction fs with
    | nil => intro _ w; rfl
    | cons f fs ih =>
      intro hfs w
      have h0 := hfs f (by simp) w
      unfold runAll
      cases (f w).2 with
      | error e => exact h0
      | ok r =>
        dsimp only
        rw [h0]
        cases hrs : (runAll fs w).2 <;> exact ih (fun g hg => hfs g (List.mem_cons_of_mem _ hg)) w
  have hpre : (runAll pre (m.world, m.ext)).1 = (m.world, m.ext) := by
    apply hrun
    intro f hf w
    obtain ⟨g, hg, rfl⟩ := List.mem_map.1 (hp.subset hf)
    exact hq g hg state dt w
  rw [hpre] at he
  exact ⟨(Prod.mk.inj he).2, (Prod.mk.inj he).1⟩

namespace Demo

def kelvin (x : Rat) : DataArray := ⟨[], ⟨[], fun _ => x⟩, [("units", "K")]⟩

/-- Keeps array 0 and returns it as the tendency of `T`. -/
def heater : RComp Unit := fun _ _ w => (w, .ok ([("T", 0)], []))

/-- Also returns the array of `T` as a diagnostic. -/
def reporter : RComp Unit := fun s _ w =>
  (w, .ok ([("T", 0)], match s.get? "T" with | some (.ref l) => [("T_seen", l)] | _ => []))

theorem heater_quiet : ∀ f ∈ [heater], ∀ s dt w, (f s dt w).1 = w := by
  intro f hf s dt w
  rw [List.mem_singleton.1 hf]; rfl

theorem reporter_quiet : ∀ f ∈ [reporter], ∀ s dt w, (f s dt w).1 = w := by
  intro f hf s dt w
  rw [List.mem_singleton.1 hf]; rfl

/-- Array 0 is a rate of 1 K/s, array 1 is 10 K, array 2 is 50 K. -/
def arrays : Ext := fun l =>
  if l = 0 then ⟨[], ⟨[], fun _ => 1⟩, [("units", "K s^-1")]⟩ else if l = 1 then kelvin 10 else kelvin 50

def mem0 : SMem Unit := ⟨((), 3), arrays, []⟩

/-- A step from array `l`; before it the caller overwrites array 1. -/
def scribble (l : Nat) : Event Unit :=
  ⟨fun w => (w.1, fun j => if j = 1 then kelvin 100 else w.2 j), [("T", .ref l)], 1000000⟩

/-- A step from array `l`. -/
def step (l : Nat) : Event Unit := ⟨id, [("T", .ref l)], 1000000⟩

/-- The value of `T` in the new state of the last call. -/
def lastT (r : Except Err (Dict DataArray × State)) : Rat :=
  match r with
  | .ok o => match State.da o.2 "T" with | .ok a => a.arr.get [] | .error _ => 0
  | .error _ => 0

/-- The value of the diagnostic `T_seen` -/
def seenT (r : Except Err (Dict DataArray × State)) : Rat :=
  match r with
  | .ok o => match o.1.get? "T_seen" with | some a => a.arr.get [] | none => 0
  | .error _ => 0

end Demo

theorem Event.fair_quiet {R : Registry} {cs : List (RComp Unit)} {e : Event Unit} {m : SMem Unit}
    (hq : ∀ f ∈ cs, ∀ s dt w, (f s dt w).1 = w)
    (hs : (e.state.all fun kv => match kv.2 with | .ref l => decide (l < (e.before m).world.2) | _ => true) = true)
    (hd : (match (callComposite R cs (e.before m) e.state e.dt).2 with
      | .ok r => r.2.all fun kv => match kv.2 with | .ext l => decide (l < (e.before m).world.2) | _ => true
      | _ => true) = true) : e.Fair R cs m := by
  obtain ⟨q1, q2⟩ := callComposite_quiet (R := R) hq (e.before m) e.state e.dt
  refine ⟨?_, ?_⟩
  · intro k l hkl
    rw [q1, q2]
    refine ⟨?_, rfl⟩
    have := List.all_eq_true.1 hs _ hkl
    simpa using this
  · intro r hr k l hkl
    rw [hr] at hd
    rw [q2]
    have := List.all_eq_true.1 hd _ hkl
    simpa using this

/-- Non-vacuity: after the first step the caller overwrites the array of the first state;
the second AdamsBashforth step is right. -/
example : ABH.Fair Demo.reg [Demo.heater] [Demo.step 1, Demo.scribble 3] { order := 2 } Demo.mem0 ∧
    (ABH.run Demo.reg [Demo.heater] [Demo.step 1, Demo.scribble 3] { order := 2 } Demo.mem0).map
      (fun r => Demo.lastT r.2) = [11, 12] := by
  refine ⟨⟨?_, ?_, trivial⟩, by decide +kernel⟩
  · exact Event.fair_quiet Demo.heater_quiet (by decide +kernel) (by decide +kernel)
  · exact Event.fair_quiet Demo.heater_quiet (by decide +kernel) (by decide +kernel)

/-- All calls of a run of a Leapfrog are fair; nothing is said about what the caller
does to arrays of earlier states. -/
def LFH.FairCalls {σ : Type} (R : Registry) (cs : List (RComp σ)) : List (Event σ) → LFH → SMem σ → Prop
  | [], _, _ => True
  | e :: es, lf, m =>
    e.Fair R cs m ∧
    LFH.FairCalls R cs es (LFH.call R cs lf (e.before m) e.state e.dt).1 (LFH.call R cs lf (e.before m) e.state e.dt).2.1

/-- **C85 fails for Leapfrog**: if the caller overwrites an array of the state of the
first call before the second, the second step starts from what was written (102 K
instead of 12 K). -/
theorem leapfrog_sees_later_changes :
    ∃ (cs : List (RComp Unit)) (es : List (Event Unit)) (m : SMem Unit),
      LFH.FairCalls Demo.reg cs es { strength := 0 } m ∧
      (LFH.run Demo.reg cs es { strength := 0 } m).map (·.2) ≠
        replayLF Demo.reg ((LFH.run Demo.reg cs es { strength := 0 } m).map (·.1)) { strength := 0 } := by
  refine ⟨[Demo.heater], [Demo.step 1, Demo.scribble 3], Demo.mem0, ⟨?_, ?_, trivial⟩, ?_⟩
  · exact Event.fair_quiet Demo.heater_quiet (by decide +kernel) (by decide +kernel)
  · exact Event.fair_quiet Demo.heater_quiet (by decide +kernel) (by decide +kernel)
  · intro h
    have := congrArg (fun l => l.map (fun r => Demo.lastT r.2)) h
    revert this
    decide +kernel

/-- **C85 fails for Leapfrog with a diagnostic that is an array of the state**: the
filter changes it after the component returned it, although nobody else does anything
to any array. -/
theorem leapfrog_changes_diagnostics :
    ∃ (cs : List (RComp Unit)) (es : List (Event Unit)) (m : SMem Unit),
      LFH.FairCalls Demo.reg cs es { strength := 1 } m ∧ (∀ e ∈ es, ∀ w, e.act w = w) ∧
      (LFH.run Demo.reg cs es { strength := 1 } m).map (fun r => Demo.seenT r.2.2) ≠
        (LFH.run Demo.reg cs es { strength := 1 } m).map (fun r =>
          Demo.seenT (r.1.answer >>= fun a => .ok (a.2, []))) := by
  refine ⟨[Demo.reporter], [Demo.step 1, Demo.step 2], Demo.mem0, ⟨?_, ?_, trivial⟩, ?_, ?_⟩
  · exact Event.fair_quiet Demo.reporter_quiet (by decide +kernel) (by decide +kernel)
  · exact Event.fair_quiet Demo.reporter_quiet (by decide +kernel) (by decide +kernel)
  · intro e he w
    simp only [List.mem_cons, List.not_mem_nil, or_false] at he
    rcases he with rfl | rfl <;> rfl
  · decide +kernel

/-- Non-vacuity of the theorem on Leapfrog: without interference the filtered scheme. -/
example : LFH.Fair Demo.reg [Demo.heater] [Demo.step 1, Demo.step 2] { strength := 1 } Demo.mem0 Demo.arrays ∧
    (LFH.run Demo.reg [Demo.heater] [Demo.step 1, Demo.step 2] { strength := 1 } Demo.mem0).map
      (fun r => Demo.lastT r.2.2) = [11, 12 + 39 / 2] := by
  refine ⟨⟨?_, ?_, ?_, ?_, trivial⟩, by decide +kernel⟩
  · exact Event.fair_quiet Demo.heater_quiet (by decide +kernel) (by decide +kernel)
  · intro old ho; cases ho
  · exact Event.fair_quiet Demo.heater_quiet (by decide +kernel) (by decide +kernel)
  · have hold : (LFH.call Demo.reg [Demo.heater] { strength := 1 } ((Demo.step 1).before Demo.mem0) (Demo.step 1).state
        (Demo.step 1).dt).1.old = some [("T", .ref 1)] := by decide +kernel
    have hok : Exc.test (LFH.call Demo.reg [Demo.heater] { strength := 1 } ((Demo.step 1).before Demo.mem0)
        (Demo.step 1).state (Demo.step 1).dt).2.2 (fun _ => true) = true := by decide +kernel
    have hd : Exc.test (callComposite Demo.reg [Demo.heater] ((Demo.step 2).before (LFH.call Demo.reg [Demo.heater]
        { strength := 1 } ((Demo.step 1).before Demo.mem0) (Demo.step 1).state (Demo.step 1).dt).2.1)
        (Demo.step 2).state (Demo.step 2).dt).2 (fun r => decide (r.2 = [])) = true := by decide +kernel
    have hw : (LFH.call Demo.reg [Demo.heater] { strength := 1 } ((Demo.step 1).before Demo.mem0) (Demo.step 1).state
        (Demo.step 1).dt).2.1.world.2 = 4 := by decide +kernel
    intro old ho
    rw [hold] at ho
    cases ho
    obtain ⟨q1, q2⟩ := callComposite_quiet (R := Demo.reg) Demo.heater_quiet ((Demo.step 2).before
      (LFH.call Demo.reg [Demo.heater] { strength := 1 } ((Demo.step 1).before Demo.mem0) (Demo.step 1).state
        (Demo.step 1).dt).2.1) (Demo.step 2).state (Demo.step 2).dt
    refine ⟨⟨by decide, ?_⟩, ?_⟩
    · intro r hr k _ l hl
      rw [hr] at hd
      have hr2 : r.2 = [] := by simpa [Exc.test] using hd
      have hkl : k = "T" ∧ l = 2 := by
        have := Dict.mem_of_get? hl
        simp only [Demo.step, List.mem_singleton, Prod.mk.injEq, RVal.ref.injEq] at this
        exact this
      obtain ⟨rfl, rfl⟩ := hkl
      refine ⟨?_, by rw [hr2]; simp⟩
      rintro k' (hk' | hk')
      · have := Dict.mem_of_get? hk'
        simp only [Demo.step, List.mem_singleton, Prod.mk.injEq] at this
        exact this.1
      · have := Dict.mem_of_get? hk'
        simp at this
    · intro k l hkl
      rw [q1, q2]
      obtain ⟨_, rfl⟩ : k = "T" ∧ l = 1 := by simpa using hkl
      refine ⟨by show 1 < (LFH.call _ _ _ _ _ _).2.1.world.2; rw [hw]; decide, ?_⟩
      cases hr : (LFH.call Demo.reg [Demo.heater] { strength := 1 } ((Demo.step 1).before Demo.mem0) (Demo.step 1).state
        (Demo.step 1).dt).2.2 with
      | error e => rw [hr] at hok; cases hok
      | ok o => rfl

end Verif
