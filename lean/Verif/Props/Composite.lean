import Verif.Lemmas.Composite
import Verif.Props.Combine
import Verif.Props.Components
import Verif.Props.DuckType
import Verif.Spec.Tracers
/-!
# C28, C29: composites
-/

namespace Verif

/-! ## C28 -/

theorem compositeLoop_ok {σ : Type} {R : Registry} {fs : List (σ → σ × Except Err TendOut)} {s s' : σ}
    {t d t' d' : Dict DataArray} (h : compositeLoop R fs s t d = (s', .ok (t', d'))) :
    ∃ rs, runAll fs s = (s', .ok rs) ∧ sumAll R (rs.map (·.1)) t = .ok t' ∧
      d' = rs.foldl (fun d r => d.update r.2) d := by
  induction fs generalizing s t d with
  | nil =>
    unfold compositeLoop at h
    cases h
    exact ⟨[], rfl, rfl, rfl⟩
  | cons f fs ih =>
    unfold compositeLoop at h
    unfold runAll
    cases hr : (f s).2 with
    | error e => rw [hr] at h; cases h
    | ok r =>
      rw [hr] at h
      dsimp only at h
      cases ha : addInto R r.1 t with
      | error e => rw [ha] at h; cases h
      | ok m =>
        rw [ha] at h
        dsimp only at h
        obtain ⟨rs, h1, h2, h3⟩ := ih h
        refine ⟨r :: rs, ?_, ?_, h3⟩
        · rw [h1]
        · show sumAll R (r.1 :: rs.map (·.1)) t = _
          unfold sumAll; rw [ha]; exact h2

theorem compositeLoop_of {σ : Type} {R : Registry} {fs : List (σ → σ × Except Err TendOut)} {s s' : σ}
    {t d t' : Dict DataArray} {rs : List TendOut} (h : runAll fs s = (s', .ok rs))
    (hs : sumAll R (rs.map (·.1)) t = .ok t') :
    compositeLoop R fs s t d = (s', .ok (t', rs.foldl (fun d r => d.update r.2) d)) := by
  induction fs generalizing s t d rs with
  | nil =>
    unfold runAll at h; cases h
    cases hs; rfl
  | cons f fs ih =>
    unfold runAll at h
    unfold compositeLoop
    cases hr : (f s).2 with
    | error e => rw [hr] at h; cases h
    | ok r =>
      rw [hr] at h
      dsimp only at h ⊢
      cases hrs : (runAll fs (f s).1).2 with
      | error e => rw [hrs] at h; cases h
      | ok rs' =>
        rw [hrs] at h
        cases h
        change sumAll R (r.1 :: rs'.map (·.1)) t = _ at hs
        unfold sumAll at hs
        obtain ⟨m, hm, hs⟩ := Exc.bind_ok_iff.1 hs
        rw [hm]
        exact ih (Prod.ext rfl hrs) hs

/-- Everything the components return is well formed. -/
def WellFormedReturns {σ : Type} (fs : List (σ → σ × Except Err TendOut)) (s : σ) : Prop :=
  ∀ rs, (runAll fs s).2 = .ok rs → ∀ r ∈ rs, r.1.keys.Nodup ∧ ∀ n a, r.1.get? n = some a → a.WF

theorem mem_contribs {n : String} {ts : List (Dict DataArray)} {c : DataArray} :
    c ∈ contribs n ts ↔ ∃ d ∈ ts, Dict.get? d n = some c := by
  unfold contribs; exact List.mem_filterMap

/-- **C28.**  A call of a tendency composite runs every component once, in order, and
returns for each quantity any of them has a tendency of the sum, in base units and at
every named coordinate, of their tendencies; its dims are those of all of them.
(`runAll` is the sequence of component calls; offset units such as degC are not
tendency units.) -/
theorem composite_tendencies_sum {σ : Type} (R : Registry) (hR : R.Faithful)
    (fs : List (σ → σ × Except Err TendOut)) (s s' : σ) (t d : Dict DataArray)
    (hwf : WellFormedReturns fs s) (h : compositeLoop R fs s [] [] = (s', .ok (t, d))) :
    ∃ rs, runAll fs s = (s', .ok rs) ∧ ∀ n,
      (n ∈ t.keys ↔ ∃ r ∈ rs, n ∈ Dict.keys r.1) ∧
      ∀ q, t.get? n = some q →
        q.WF ∧
        (∃ c0 rest, contribs n (rs.map (·.1)) = c0 :: rest ∧ q.attrs = c0.attrs) ∧
        (∀ x, x ∈ q.dims ↔ ∃ c ∈ contribs n (rs.map (·.1)), x ∈ c.dims) ∧
        (∀ c ∈ contribs n (rs.map (·.1)), ∀ x ∈ c.dims, q.len x = c.len x) ∧
        ((∀ c ∈ contribs n (rs.map (·.1)), Multiplicative R c) →
          ∀ ix, physAt R ix q = ((contribs n (rs.map (·.1))).map (physAt R ix)).sum) := by
  obtain ⟨rs, h1, h2, _⟩ := compositeLoop_ok h
  have hwf' := hwf rs (by rw [h1])
  have hn : ∀ d ∈ rs.map (·.1), (Dict.keys d).Nodup := by
    intro d hd
    obtain ⟨r, hr, rfl⟩ := List.mem_map.1 hd
    exact (hwf' r hr).1
  refine ⟨rs, h1, ?_⟩
  intro n
  have hcwf : ∀ c ∈ contribs n (rs.map (·.1)), c.WF := by
    intro c hc
    obtain ⟨d, hd, hc⟩ := mem_contribs.1 hc
    obtain ⟨r, hr, rfl⟩ := List.mem_map.1 hd
    exact (hwf' r hr).2 n c hc
  have hsum := sumAll_get? hn h2 n
  have hres := (sumFrom_none hR hcwf).2 _ hsum
  constructor
  · rw [← Dict.get?_isSome_iff]
    constructor
    · intro hsome
      rcases hres with ⟨_, h0⟩ | ⟨c0, rest, q, hc, hq, _⟩
      · rw [h0] at hsome; cases hsome
      · obtain ⟨d, hd, hc⟩ := mem_contribs.1 (show c0 ∈ contribs n (rs.map (·.1)) by rw [hc]; simp)
        obtain ⟨r, hr, rfl⟩ := List.mem_map.1 hd
        exact ⟨r, hr, Dict.mem_keys_of_get? hc⟩
    · rintro ⟨r, hr, hk⟩
      obtain ⟨v, hv⟩ := Dict.get?_of_mem_keys hk
      have : v ∈ contribs n (rs.map (·.1)) := mem_contribs.2 ⟨r.1, List.mem_map.2 ⟨r, hr, rfl⟩, hv⟩
      rcases hres with ⟨h0, _⟩ | ⟨c0, rest, q, hc, hq, _⟩
      · rw [h0] at this; cases this
      · rw [hq]; rfl
  · intro q hq
    rcases hres with ⟨_, h0⟩ | ⟨c0, rest, q', hc, hq', r1, r2, r3, r4, r5⟩
    · rw [h0] at hq; cases hq
    · rw [hq] at hq'; cases hq'
      exact ⟨r1, ⟨c0, rest, hc, r2⟩, r3, r4, r5⟩

/-- **C28, success.**  If the component calls succeed, the composite call succeeds
exactly if the tendencies for each quantity can be added. -/
theorem composite_succeeds_iff {σ : Type} (R : Registry) (hR : R.Faithful)
    (fs : List (σ → σ × Except Err TendOut)) (s s' : σ) (rs : List TendOut)
    (hwf : WellFormedReturns fs s) (hrun : runAll fs s = (s', .ok rs)) :
    (∃ o, (compositeLoop R fs s [] []).2 = .ok o) ↔ ∀ n, Addable R (contribs n (rs.map (·.1))) := by
  have hwf' := hwf rs (by rw [hrun])
  have hn : ∀ d ∈ rs.map (·.1), (Dict.keys d).Nodup := by
    intro d hd
    obtain ⟨r, hr, rfl⟩ := List.mem_map.1 hd
    exact (hwf' r hr).1
  have hcwf : ∀ n, ∀ c ∈ contribs n (rs.map (·.1)), c.WF := by
    intro n c hc
    obtain ⟨d, hd, hc⟩ := mem_contribs.1 hc
    obtain ⟨r, hr, rfl⟩ := List.mem_map.1 hd
    exact (hwf' r hr).2 n c hc
  constructor
  · rintro ⟨⟨t, d⟩, ho⟩ n
    obtain ⟨rs', h1, h2, _⟩ := compositeLoop_ok (Prod.ext (x := compositeLoop R fs s [] []) rfl ho)
    rw [hrun] at h1; cases h1
    exact (sumFrom_none hR (hcwf n)).1.1 ⟨_, sumAll_get? hn h2 n⟩
  · intro h
    obtain ⟨t', ht'⟩ := sumAll_isOk (R := R) (t := []) hn
      (fun n => (sumFrom_none hR (hcwf n)).1.2 (h n))
    rw [compositeLoop_of hrun ht']
    exact ⟨_, rfl⟩

theorem Addable.perm {R : Registry} {a b : List DataArray} (hp : a.Perm b) (h : Addable R a) : Addable R b := by
  rcases h with h | ⟨⟨dim, h1⟩, h2⟩
  · exact Or.inl (by rw [← hp.length_eq]; exact h)
  · refine Or.inr ⟨⟨dim, fun c hc => h1 c (hp.mem_iff.2 hc)⟩, ?_⟩
    exact (hp.pairwise_iff (fun {x y} hxy d h1 h2 => (hxy d h2 h1).symm)).1 h2

/-- **C28, order.**  Reordering components whose results do not depend on each other
changes neither whether the composite succeeds nor any physical tendency. -/
theorem composite_order_irrelevant {σ : Type} (R : Registry) (hR : R.Faithful)
    (fs fs' : List (σ → σ × Except Err TendOut)) (hp : fs.Perm fs') (s s1 s1' : σ) (rs rs' : List TendOut)
    (hpure : ∀ f ∈ fs, ∀ a b, (f a).2 = (f b).2)
    (hwf : WellFormedReturns fs s)
    (hrun : runAll fs s = (s1, .ok rs)) (hrun' : runAll fs' s = (s1', .ok rs'))
    (hm : ∀ r ∈ rs, ∀ n a, r.1.get? n = some a → Multiplicative R a) :
    ((∃ o, (compositeLoop R fs s [] []).2 = .ok o) ↔ ∃ o, (compositeLoop R fs' s [] []).2 = .ok o) ∧
    ∀ t d t' d', (compositeLoop R fs s [] []).2 = .ok (t, d) →
      (compositeLoop R fs' s [] []).2 = .ok (t', d') →
      ∀ n, (n ∈ t.keys ↔ n ∈ t'.keys) ∧ ∀ q q', t.get? n = some q → t'.get? n = some q' →
        ∀ ix, physAt R ix q = physAt R ix q' := by
  -- what is returned does not depend on the world, so the results are permuted as well
  have hall : ∀ (l : List (σ → σ × Except Err TendOut)) (s0 s2 : σ) (os : List TendOut),
      (∀ f ∈ l, ∀ a b, (f a).2 = (f b).2) → runAll l s0 = (s2, .ok os) →
      os.map Except.ok = l.map (fun f => (f s).2) := by
    intro l
    induction l with
    | nil => intro s0 s2 os _ h; unfold runAll at h; cases h; rfl
    | cons f l ih =>
      intro s0 s2 os hpl h
      unfold runAll at h
      cases hr : (f s0).2 with
      | error e => rw [hr] at h; cases h
      | ok r =>
        rw [hr] at h
        dsimp only at h
        cases hrs : (runAll l (f s0).1).2 with
        | error e => rw [hrs] at h; cases h
        | ok os' =>
          rw [hrs] at h
          cases h
          rw [List.map_cons, List.map_cons, ih _ _ _ (fun g hg => hpl g (List.mem_cons_of_mem _ hg))
            (Prod.ext rfl hrs), ← hr, hpl f (by simp) s0 s]
  have e1 := hall fs s s1 rs hpure hrun
  have e2 := hall fs' s s1' rs' (fun f hf => hpure f (hp.mem_iff.2 hf)) hrun'
  have hperm : rs.Perm rs' := by
    have hpm : (rs.map (Except.ok (ε := Err))).Perm (rs'.map Except.ok) := by
      rw [e1, e2]; exact hp.map _
    have hfil : ∀ l : List TendOut, (l.map (Except.ok (ε := Err))).filterMap
        (fun x => match x with | .ok a => some a | .error _ => none) = l := by
      intro l
      induction l with
      | nil => rfl
      | cons a l ih => simp
    have := hpm.filterMap (fun x => match x with | .ok a => some a | .error _ => none)
    rwa [hfil, hfil] at this
  have hcp : ∀ n, (contribs n (rs.map (·.1))).Perm (contribs n (rs'.map (·.1))) := fun n =>
    (hperm.map _).filterMap _
  have hwf' : WellFormedReturns fs' s := by
    intro os hos r hr
    rw [hrun'] at hos; cases hos
    exact hwf rs (by rw [hrun]) r (hperm.mem_iff.2 hr)
  constructor
  · rw [composite_succeeds_iff R hR fs s s1 rs hwf hrun, composite_succeeds_iff R hR fs' s s1' rs' hwf' hrun']
    exact ⟨fun h n => (h n).perm (hcp n), fun h n => (h n).perm (hcp n).symm⟩
  · intro t d t' d' ho ho' n
    obtain ⟨os, h1, h2⟩ := composite_tendencies_sum R hR fs s _ t d hwf
      (Prod.ext (x := compositeLoop R fs s [] []) rfl ho)
    obtain ⟨os', h1', h2'⟩ := composite_tendencies_sum R hR fs' s _ t' d' hwf'
      (Prod.ext (x := compositeLoop R fs' s [] []) rfl ho')
    rw [hrun] at h1; cases h1
    rw [hrun'] at h1'; cases h1'
    obtain ⟨k1, k2⟩ := h2 n
    obtain ⟨k1', k2'⟩ := h2' n
    refine ⟨?_, ?_⟩
    · rw [k1, k1']
      exact ⟨fun ⟨r, hr, hk⟩ => ⟨r, hperm.mem_iff.1 hr, hk⟩, fun ⟨r, hr, hk⟩ => ⟨r, hperm.mem_iff.2 hr, hk⟩⟩
    · intro q q' hq hq' ix
      have hmc : ∀ c ∈ contribs n (rs.map (·.1)), Multiplicative R c := by
        intro c hc
        obtain ⟨d, hd, hc⟩ := mem_contribs.1 hc
        obtain ⟨r, hr, rfl⟩ := List.mem_map.1 hd
        exact hm r hr n c hc
      have hmc' : ∀ c ∈ contribs n (rs'.map (·.1)), Multiplicative R c :=
        fun c hc => hmc c ((hcp n).mem_iff.2 hc)
      rw [(k2 q hq).2.2.2.2 hmc ix, (k2' q' hq').2.2.2.2 hmc' ix]
      exact ((hcp n).map _).sum_eq

/-- **C28, TendencyComponentComposite.** Each component is called with the state. -/
theorem tendency_composite_sum {σ : Type} (R : Registry) (hR : R.Faithful) (cs : List (Comp σ)) (s s' : σ)
    (state : State) (t d : Dict DataArray)
    (hwf : WellFormedReturns (cs.map fun c s => c.callT s state) s)
    (h : callTendencyComposite R cs s state = (s', .ok (t, d))) :
    ∃ rs, runAll (cs.map fun c s => c.callT s state) s = (s', .ok rs) ∧ ∀ n q, t.get? n = some q →
      (∀ c ∈ contribs n (rs.map (·.1)), Multiplicative R c) →
      ∀ ix, physAt R ix q = ((contribs n (rs.map (·.1))).map (physAt R ix)).sum := by
  obtain ⟨rs, h1, h2⟩ := composite_tendencies_sum R hR _ s s' t d hwf h
  exact ⟨rs, h1, fun n q hq => ((h2 n).2 q hq).2.2.2.2⟩

/-- **C28, ImplicitTendencyComponentComposite.**  A duck-typed component accepted by the
composite gets the timestep exactly if its `__call__` has such an argument. -/
theorem implicit_composite_calls {σ : Type} (c : Comp σ) (state : State) (dt : Int) (spec : ArgSpec)
    (hb : c.obj.bases = []) (hc : c.obj.call = some spec) (hwf : spec.WF)
    (hacc : acceptedBy .implicit c.obj = true) :
    ("timestep" ∈ spec.args → implicitCall c state dt = fun s => c.callI s state dt) ∧
    ("timestep" ∉ spec.args → implicitCall c state dt = fun s => c.callT s state) := by
  have hall : ∀ s, c.obj.call = some s → s.WF := by
    intro s hs; rw [hc] at hs; cases hs; exact hwf
  have hI := duck_type_iff .implicit c.obj hb hall
  have hT := duck_type_iff .tendency c.obj hb hall
  have hopt : TimestepOptional spec → "timestep" ∈ spec.args := by
    rintro ⟨pre, post, ha, _, hm⟩
    rw [ha]
    exact List.mem_append_right _ (List.of_mem_zip hm).1
  simp only [acceptedBy, Bool.or_eq_true] at hacc
  constructor
  · intro ht
    have : isInstance .implicit c.obj = true := by
      rcases hacc with h | h
      · obtain ⟨s, hs, hi, _⟩ := hT.1 h
        rw [hc] at hs; cases hs
        exact hI.2 ⟨spec, hc, hi, Or.inl ⟨fun _ => ht, fun _ => trivial⟩⟩
      · exact h
    unfold implicitCall
    rw [this]; rfl
  · intro ht
    have hnI : isInstance .implicit c.obj = false := by
      rw [Bool.eq_false_iff]
      intro h
      obtain ⟨s, hs, _, h2⟩ := hI.1 h
      rw [hc] at hs; cases hs
      rcases h2 with h2 | h2
      · exact ht (h2.1 trivial)
      · exact ht (hopt h2)
    have hyT : isInstance .tendency c.obj = true := by
      rcases hacc with h | h
      · exact h
      · rw [hnI] at h; cases h
    unfold implicitCall
    rw [hnI, hyT]; rfl

/-- **C28, ImplicitTendencyComponentComposite, sum.**  Each component the composite
accepts is called with the state, those that take a timestep with the composite's own. -/
theorem implicit_composite_sum {σ : Type} (R : Registry) (hR : R.Faithful) (cs : List (Comp σ)) (s s' : σ)
    (state : State) (dt : Int) (t d : Dict DataArray) (hacc : ∀ c ∈ cs, acceptedBy .implicit c.obj = true)
    (hwf : WellFormedReturns (cs.map fun c s =>
      if isInstance .implicit c.obj then c.callI s state dt else c.callT s state) s)
    (h : callImplicitComposite R cs s state dt = (s', .ok (t, d))) :
    ∃ rs, runAll (cs.map fun c s =>
        if isInstance .implicit c.obj then c.callI s state dt else c.callT s state) s = (s', .ok rs) ∧
      ∀ n, (n ∈ t.keys ↔ ∃ r ∈ rs, n ∈ Dict.keys r.1) ∧ ∀ q, t.get? n = some q →
        (∀ c ∈ contribs n (rs.map (·.1)), Multiplicative R c) →
        ∀ ix, physAt R ix q = ((contribs n (rs.map (·.1))).map (physAt R ix)).sum := by
  have e : (cs.map fun c => implicitCall c state dt) = cs.map fun c s =>
      if isInstance .implicit c.obj then c.callI s state dt else c.callT s state := by
    apply List.map_congr_left
    intro c hc
    funext s
    have := hacc c hc
    simp only [acceptedBy, Bool.or_eq_true] at this
    unfold implicitCall
    by_cases hi : isInstance .implicit c.obj = true
    · rw [if_pos hi, if_pos hi]
    · rw [if_neg hi, if_neg hi, if_pos (this.resolve_right hi)]
  unfold callImplicitComposite at h
  rw [e] at h
  obtain ⟨rs, h1, h2⟩ := composite_tendencies_sum R hR _ s s' t d hwf h
  exact ⟨rs, h1, fun n => ⟨(h2 n).1, fun q hq => ((h2 n).2 q hq).2.2.2.2⟩⟩

/-! ## C29 -/

/-- **C29, construction.**  A composite whose components declare a common diagnostic
cannot be constructed; once the types and inputs are in order, the error is
SharedKeyError. -/
theorem shared_diagnostic_rejected (R : Registry) (o : SetOrder) (g : Tracers) (k : Kind)
    (cs : List (Class × Obj)) (c1 c2 : Class) (n : String)
    (hs : [c1, c2].Sublist (cs.map (·.1))) (h1 : n ∈ c1.diagProps.keys) (h2 : n ∈ c2.diagProps.keys) :
    (∀ c, compositeConstruct R o g k cs ≠ .ok c) ∧
    ((∀ c ∈ cs, acceptedBy k c.2 = true) → (∃ inP, combineInputs R o g (cs.map (·.1)) = .ok inP) →
      compositeConstruct R o g k cs = .error .sharedKey) := by
  have hloop : ∀ (l : List Class) (out : PropDict),
      (([c1, c2].Sublist l) ∨ ([c2].Sublist l ∧ n ∈ out.keys)) →
      compositeDiagLoop l out = .error .sharedKey := by
    intro l
    induction l with
    | nil => rintro out (h | ⟨h, _⟩) <;> simp at h
    | cons c l ih =>
      intro out h
      unfold compositeDiagLoop ensureNoSharedKeys
      by_cases hany : c.diagProps.keys.any (fun k => out.keys.contains k) = true
      · rw [if_pos hany]; rfl
      · rw [if_neg hany, Exc.ok_bind]
        apply ih
        rcases h with h | ⟨h, hn⟩
        · cases h with
          | cons _ h => exact Or.inl h
          | cons_cons _ h =>
            refine Or.inr ⟨h, ?_⟩
            rw [Dict.mem_keys_update]; exact Or.inr h1
        · cases h with
          | cons _ h => exact Or.inr ⟨h, by rw [Dict.mem_keys_update]; exact Or.inl hn⟩
          | cons_cons _ h =>
            exfalso
            apply hany
            rw [List.any_eq_true]
            exact ⟨n, h2, by simpa using hn⟩
  have hdiag : ∀ inP, compositeDiagProps (cs.map (·.1)) inP = .error .sharedKey := by
    intro inP
    unfold compositeDiagProps
    rw [hloop _ [] (Or.inl hs)]; rfl
  have hgen : cs.all (fun c => acceptedBy k c.2) = true → ∀ inP,
      combineInputs R o g (cs.map (·.1)) = .ok inP → compositeConstruct R o g k cs = .error .sharedKey := by
    intro ht inP hin
    unfold compositeConstruct
    rw [if_pos ht, hin, Exc.ok_bind, hdiag]; rfl
  constructor
  · intro c hc
    by_cases ht : cs.all (fun c => acceptedBy k c.2) = true
    · cases hin : combineInputs R o g (cs.map (·.1)) with
      | ok inP => rw [hgen ht inP hin] at hc; cases hc
      | error e =>
        unfold compositeConstruct at hc
        rw [if_pos ht, hin] at hc; cases hc
    · unfold compositeConstruct at hc
      rw [if_neg ht] at hc; cases hc
  · rintro ht ⟨inP, hin⟩
    exact hgen (List.all_eq_true.2 ht) inP hin

theorem diagnosticLoop_spec {σ : Type} (fs : List (σ → σ × Except Err (Dict DataArray))) (s s' : σ)
    (d : Dict DataArray) (rs : List (Dict DataArray)) (hrun : runAll fs s = (s', .ok rs))
    (hnd : ∀ r ∈ rs, (Dict.keys r).Nodup) :
    ((rs.Pairwise (fun a b => ∀ n ∈ Dict.keys a, n ∉ Dict.keys b) ∧
        (∀ r ∈ rs, ∀ n ∈ Dict.keys r, n ∉ d.keys)) →
      ∃ out, diagnosticLoop fs s d = (s', .ok out) ∧ (∀ n, n ∈ out.keys ↔ n ∈ d.keys ∨ ∃ r ∈ rs, n ∈ Dict.keys r) ∧
        (∀ n v, d.get? n = some v → out.get? n = some v) ∧
        ∀ r ∈ rs, ∀ n v, Dict.get? r n = some v → out.get? n = some v) ∧
    (¬ (rs.Pairwise (fun a b => ∀ n ∈ Dict.keys a, n ∉ Dict.keys b) ∧
        (∀ r ∈ rs, ∀ n ∈ Dict.keys r, n ∉ d.keys)) →
      (diagnosticLoop fs s d).2 = .error .sharedKey) := by
  induction fs generalizing s d rs with
  | nil =>
    unfold runAll at hrun; cases hrun
    refine ⟨fun _ => ⟨d, rfl, by simp, fun _ _ h => h, by simp⟩, fun h => absurd ⟨List.Pairwise.nil, by simp⟩ h⟩
  | cons f fs ih =>
    unfold runAll at hrun
    unfold diagnosticLoop
    cases hr : (f s).2 with
    | error e => rw [hr] at hrun; cases hrun
    | ok r =>
      rw [hr] at hrun
      dsimp only at hrun ⊢
      cases hrs : (runAll fs (f s).1).2 with
      | error e => rw [hrs] at hrun; cases hrun
      | ok rs' =>
        rw [hrs] at hrun
        cases hrun
        have hr0 : (Dict.keys r).Nodup := hnd r (by simp)
        obtain ⟨i1, i2⟩ := ih (f s).1 (d.update r) rs' (Prod.ext rfl hrs)
          (fun r' h => hnd r' (List.mem_cons_of_mem _ h))
        by_cases hsh : ∃ n ∈ Dict.keys r, n ∈ d.keys
        · have hens : ensureNoSharedKeys d r = .error .sharedKey := by
            unfold ensureNoSharedKeys
            rw [if_pos]
            obtain ⟨n, h1, h2⟩ := hsh
            rw [List.any_eq_true]
            exact ⟨n, h2, by simpa using h1⟩
          rw [hens]
          refine ⟨?_, fun _ => rfl⟩
          rintro ⟨_, h2⟩
          obtain ⟨n, h3, h4⟩ := hsh
          exact absurd h4 (h2 r (by simp) n h3)
        · have hens : ensureNoSharedKeys d r = .ok () := by
            unfold ensureNoSharedKeys
            rw [if_neg]
            intro h
            obtain ⟨n, h1, h2⟩ := List.any_eq_true.1 h
            exact hsh ⟨n, by simpa using h2, h1⟩
          rw [hens]
          dsimp only
          have hiff : ((r :: rs').Pairwise (fun a b => ∀ n ∈ Dict.keys a, n ∉ Dict.keys b) ∧
              (∀ r_1 ∈ r :: rs', ∀ n ∈ Dict.keys r_1, n ∉ d.keys)) ↔
              (rs'.Pairwise (fun a b => ∀ n ∈ Dict.keys a, n ∉ Dict.keys b) ∧
              (∀ r_1 ∈ rs', ∀ n ∈ Dict.keys r_1, n ∉ (d.update r).keys)) := by
            rw [List.pairwise_cons]
            constructor
            · rintro ⟨⟨a1, a2⟩, a3⟩
              refine ⟨a2, ?_⟩
              intro r1 hr1 n hn
              rw [Dict.mem_keys_update]
              rintro (h | h)
              · exact a3 r1 (List.mem_cons_of_mem _ hr1) n hn h
              · exact a1 r1 hr1 n h hn
            · rintro ⟨a1, a2⟩
              refine ⟨⟨?_, a1⟩, ?_⟩
              · intro r1 hr1 n hn hn1
                exact a2 r1 hr1 n hn1 (by rw [Dict.mem_keys_update]; exact Or.inr hn)
              · intro r1 hr1 n hn hnd'
                rcases List.mem_cons.1 hr1 with rfl | hr1
                · exact hsh ⟨n, hn, hnd'⟩
                · exact a2 r1 hr1 n hn (by rw [Dict.mem_keys_update]; exact Or.inl hnd')
          constructor
          · intro hc
            obtain ⟨out, o1, o2, o3, o4⟩ := i1 (hiff.1 hc)
            refine ⟨out, o1, ?_, ?_, ?_⟩
            · intro n
              rw [o2, Dict.mem_keys_update]
              simp only [List.mem_cons, exists_eq_or_imp]
              exact or_assoc
            · intro n v hv
              apply o3
              rw [Dict.get?_update _ _ hr0]
              have : r.get? n = none := by
                rw [Dict.get?_eq_none_iff]
                intro h; exact hsh ⟨n, h, Dict.mem_keys_of_get? hv⟩
              rw [this]; exact hv
            · intro r1 hr1 n v hv
              rcases List.mem_cons.1 hr1 with rfl | hr1
              · apply o3
                rw [Dict.get?_update _ _ hr0, hv]; rfl
              · exact o4 r1 hr1 n v hv
          · intro hc
            exact i2 (fun h => hc (hiff.2 h))

/-- **C29, DiagnosticComponentComposite.**  When the component calls succeed: if no
quantity is returned twice, the composite returns exactly what the components return;
otherwise it raises SharedKeyError. -/
theorem diagnostic_composite_no_overwrite {σ : Type} (cs : List (DiagComp σ)) (s s' : σ) (state : State)
    (rs : List (Dict DataArray)) (hrun : runAll (cs.map fun c s => c.call s state) s = (s', .ok rs))
    (hnd : ∀ r ∈ rs, (Dict.keys r).Nodup) :
    (rs.Pairwise (fun a b => ∀ n ∈ Dict.keys a, n ∉ Dict.keys b) →
      ∃ out, callDiagnosticComposite cs s state = (s', .ok out) ∧
        (∀ n, n ∈ out.keys ↔ ∃ r ∈ rs, n ∈ Dict.keys r) ∧
        ∀ r ∈ rs, ∀ n v, Dict.get? r n = some v → out.get? n = some v) ∧
    (∀ a b n, [a, b].Sublist rs → n ∈ Dict.keys a → n ∈ Dict.keys b →
      (callDiagnosticComposite cs s state).2 = .error .sharedKey) := by
  obtain ⟨h1, h2⟩ := diagnosticLoop_spec _ s s' [] rs hrun hnd
  constructor
  · intro hp
    obtain ⟨out, o1, o2, _, o4⟩ := h1 ⟨hp, by simp⟩
    exact ⟨out, o1, fun n => by rw [o2]; simp, o4⟩
  · intro a b n hab ha hb
    apply h2
    rintro ⟨hp, _⟩
    rw [List.pairwise_iff_forall_sublist] at hp
    exact hp hab n ha hb

theorem foldl_update_get? (rs : List TendOut) (d : Dict DataArray) (n : String) (v : DataArray)
    (hnd : ∀ r ∈ rs, (Dict.keys r.2).Nodup)
    (hp : rs.Pairwise (fun a b => ∀ n ∈ Dict.keys a.2, n ∉ Dict.keys b.2))
    (h : d.get? n = some v ∧ (∀ r ∈ rs, n ∉ Dict.keys r.2) ∨ ∃ r ∈ rs, Dict.get? r.2 n = some v) :
    (rs.foldl (fun d r => d.update r.2) d).get? n = some v := by
  induction rs generalizing d with
  | nil =>
    rcases h with ⟨h, _⟩ | ⟨r, hr, _⟩
    · exact h
    · cases hr
  | cons r rs ih =>
    rw [List.foldl_cons]
    rw [List.pairwise_cons] at hp
    apply ih _ (fun r' h => hnd r' (List.mem_cons_of_mem _ h)) hp.2
    have hu : (d.update r.2).get? n = (r.2.get? n).or (d.get? n) := by
      rw [Dict.get?_update _ _ (hnd r (by simp))]
    rcases h with ⟨h, hno⟩ | ⟨r', hr', hv⟩
    · left
      refine ⟨?_, fun r' h => hno r' (List.mem_cons_of_mem _ h)⟩
      have : r.2.get? n = none := (Dict.get?_eq_none_iff _ _).2 (hno r (by simp))
      rw [hu, this]; exact h
    · rcases List.mem_cons.1 hr' with rfl | hr'
      · left
        refine ⟨by rw [hu, hv]; rfl, ?_⟩
        intro r1 hr1 hn
        exact hp.1 r1 hr1 n (Dict.mem_keys_of_get? hv) hn
      · exact Or.inr ⟨r', hr', hv⟩

/-- **C29, tendency composites (partial).**  If the composite could be constructed and
its components return only diagnostics they declare, every diagnostic appears
unchanged.  Components that return others are not covered, and there the claim is
false: `tracer_tendency_overwritten`. -/
theorem tendency_composite_no_overwrite_partial {σ : Type} (R : Registry) (o : SetOrder) (g : Tracers) (k : Kind)
    (cs : List (Comp σ)) (calls : Comp σ → σ → σ × Except Err TendOut) (c : Class) (s s' : σ)
    (t d : Dict DataArray)
    (hmade : compositeConstruct R o g k (cs.map fun c => (c.cls, c.obj)) = .ok c)
    (hdecl : ∀ c ∈ cs, ∀ s r, (calls c s).2 = .ok r → (Dict.keys r.2).Nodup ∧ ∀ n ∈ Dict.keys r.2, n ∈ c.cls.diagProps.keys)
    (h : compositeLoop R (cs.map calls) s [] [] = (s', .ok (t, d))) :
    ∃ rs, runAll (cs.map calls) s = (s', .ok rs) ∧
      ∀ r ∈ rs, ∀ n v, Dict.get? r.2 n = some v → d.get? n = some v := by
  obtain ⟨rs, h1, h2, h3⟩ := compositeLoop_ok h
  clear h2
  refine ⟨rs, h1, ?_⟩
  -- each result belongs to a component
  have hres : ∀ (l : List (Comp σ)) (s s' : σ) (rs : List TendOut), (∀ c ∈ l, c ∈ cs) →
      runAll (l.map calls) s = (s', .ok rs) →
      List.Forall₂ (fun (c : Comp σ) (r : TendOut) => (Dict.keys r.2).Nodup ∧
        ∀ n ∈ Dict.keys r.2, n ∈ c.cls.diagProps.keys) l rs := by
    intro l
    induction l with
    | nil => intro s s' rs _ h; unfold List.map runAll at h; cases h; exact .nil
    | cons c l ih =>
      intro s s' rs hsub h
      rw [List.map_cons] at h
      unfold runAll at h
      cases hr : (calls c s).2 with
      | error e => rw [hr] at h; cases h
      | ok r =>
        rw [hr] at h
        dsimp only at h
        cases hrs : (runAll (l.map calls) (calls c s).1).2 with
        | error e => rw [hrs] at h; cases h
        | ok rs' =>
          rw [hrs] at h; cases h
          exact .cons (hdecl c (hsub c (by simp)) s r hr)
            (ih _ _ _ (fun c hc => hsub c (List.mem_cons_of_mem _ hc)) (Prod.ext rfl hrs))
  have hf := hres cs s s' rs (fun _ h => h) h1
  have hpw : cs.Pairwise (fun a b => ∀ n ∈ a.cls.diagProps.keys, n ∉ b.cls.diagProps.keys) := by
    rw [List.pairwise_iff_forall_sublist]
    intro a b hab n ha hb
    refine (shared_diagnostic_rejected R o g k _ a.cls b.cls n ?_ ha hb).1 c hmade
    have := hab.map (fun c : Comp σ => (c.cls, c.obj))
    have := this.map (·.1)
    simpa using this
  have hpr : rs.Pairwise (fun a b => ∀ n ∈ Dict.keys a.2, n ∉ Dict.keys b.2) := by
    clear h1 h3 h hres hmade hdecl
    induction hf with
    | nil => exact .nil
    | @cons a r l rs' hd hf ih =>
      rw [List.pairwise_cons] at hpw ⊢
      refine ⟨?_, ih hpw.2⟩
      intro r1 hr1 n hn hn1
      obtain ⟨b, hb, hbr⟩ : ∃ b ∈ l, (∀ n ∈ Dict.keys r1.2, n ∈ b.cls.diagProps.keys) := by
        clear ih hpw
        induction hf with
        | nil => cases hr1
        | @cons b r' l rs' hd' hf ih =>
          rcases List.mem_cons.1 hr1 with rfl | hr1
          · exact ⟨b, by simp, hd'.2⟩
          · obtain ⟨b', hb', h⟩ := ih hr1
            exact ⟨b', List.mem_cons_of_mem _ hb', h⟩
      exact hpw.1 b hb n (hd.2 n hn) (hbr n hn1)
  have hnd : ∀ r ∈ rs, (Dict.keys r.2).Nodup := by
    clear h1 h3 h hres hmade hdecl hpw hpr
    induction hf with
    | nil => simp
    | cons hd _ ih =>
      intro r hr
      rcases List.mem_cons.1 hr with rfl | hr
      · exact hd.1
      · exact ih r hr
  intro r hr n v hv
  rw [h3]
  exact foldl_update_get? rs [] n v hnd hpr (Or.inr ⟨r, hr, hv⟩)

/-! ## Concrete cases -/

namespace Demo

def tendObj : Obj := { attrs := [], bases := [.tendency], call := some ⟨["self", "state"], []⟩ }

/-- A component that returns a constant tendency of `T` in the given units and
dims and a diagnostic `d`, and counts its calls. -/
def tendComp (d units : String) (a : DataArray) : Comp Nat where
  cls := { kind := .tendency, inProps := [], outProps := [("T", { dims := some a.dims, units := some units })],
           diagProps := [(d, { dims := some a.dims, units := some units })] }
  obj := tendObj
  callT := fun s _ => (s + 1, .ok ([("T", { a with attrs := [("units", units)] })], [(d, a)]))
  callI := fun s _ _ => (s, .error .typeError)

def sumComps : List (Comp Nat) :=
  [tendComp "a" "K s^-1" prof, tendComp "b" "K day^-1" temp, tendComp "c" "K s^-1" temp]

/-- Tracer `h` is registered; its class declares no tendencies. -/
def trG : Tracers := runOps reg {} [.register "h" "m"]

def trCls : Class where
  kind := .tendency
  inProps := []
  outProps := []
  diagProps := []
  usesTracers := true
  tracerDims := some ["tracer", "*"]

def trMade : Class × Inst :=
  match construct reg trG trCls true "me" with
  | (_, c', .ok i) => (c', i)
  | _ => (trCls, ⟨"", false, [], none⟩)

/-- A tracer component: the tendency of every tracer is `x` times the tracer. -/
def trComp (x : Rat) : Comp Nat where
  cls := trMade.1
  obj := tendObj
  callT := fun s state => callTendency reg trG trMade.1 trMade.2
    (fun s raw => (s + 1, raw.arrays.get "tracers" >>= fun t => .ok ([("tracers", t.map (x * ·))], []))) s state
  callI := fun s _ _ => (s, .error .typeError)

end Demo

/-- Non-vacuity of C28: three components, units and dims mixed, called once each. -/
example : (callTendencyComposite Demo.reg Demo.sumComps 0 Demo.state).1 = 3 ∧
    Exc.test (callTendencyComposite Demo.reg Demo.sumComps 0 Demo.state).2 (fun r =>
      decide (Dict.keys r.1 = ["T"] ∧ Dict.keys r.2 = ["a", "b", "c"]) &&
      Exc.test (r.1.get "T") fun t => decide (t.dims = ["z", "x", "y"] ∧
        t.arr.get [2, 1, 0] = 3 + 120 / 86400 + 120)) = true := by decide +kernel

example : WellFormedReturns (Demo.sumComps.map fun c s => c.callT s Demo.state) 0 := by
  intro rs h r hr
  have : rs = [([("T", { Demo.prof with attrs := [("units", "K s^-1")] })], [("a", Demo.prof)]),
      ([("T", { Demo.temp with attrs := [("units", "K day^-1")] })], [("b", Demo.temp)]),
      ([("T", { Demo.temp with attrs := [("units", "K s^-1")] })], [("c", Demo.temp)])] := by
    injection h with h
    exact h.symm
  subst this
  simp only [List.mem_cons, List.not_mem_nil, or_false] at hr
  rcases hr with rfl | rfl | rfl
  all_goals
    refine ⟨by decide, ?_⟩
    intro n a ha
    have := Dict.mem_of_get? ha
    simp only [List.mem_cons, List.not_mem_nil, or_false] at this
    cases this
    exact ⟨rfl, by decide⟩

example : ∀ c ∈ Demo.sumComps, ∀ s r, (c.callT s Demo.state).2 = .ok r →
    ∀ n a, r.1.get? n = some a → Multiplicative Demo.reg a := by
  intro c hc s r hr n a ha own u h1 h2
  simp only [Demo.sumComps, List.mem_cons, List.not_mem_nil, or_false] at hc
  rcases hc with rfl | rfl | rfl
  all_goals
    injection hr with hr
    subst hr
    have := Dict.mem_of_get? ha
    simp only [List.mem_cons, List.not_mem_nil, or_false] at this
    cases this
    have h1 : _ = own := Option.some.inj h1
    subst h1
    have h2 : _ = u := Option.some.inj h2
    subst h2
    decide +kernel

/-- Non-vacuity of C28, calls: an accepted duck-typed component of each sort. -/
example : acceptedBy .implicit
      { attrs := ["input_properties", "tendency_properties", "diagnostic_properties", "array_call",
          "tendencies_in_diagnostics", "name"], bases := [], call := some ⟨["self", "state", "timestep"], []⟩ } = true ∧
    acceptedBy .implicit
      { attrs := ["input_properties", "tendency_properties", "diagnostic_properties", "array_call",
          "tendencies_in_diagnostics", "name"], bases := [], call := some ⟨["self", "state"], []⟩ } = true := by
  decide +kernel

/-- Non-vacuity of C29: this composite can be constructed, and not with two of the
same component. -/
example : Exc.test (compositeConstruct Demo.reg Demo.order {} .tendency
      (Demo.sumComps.map fun c => (c.cls, c.obj))) (fun _ => true) = false ∧
    Exc.test (compositeConstruct Demo.reg Demo.order {} .tendency
      ((Demo.sumComps.drop 1).map fun c => (c.cls, c.obj))) (fun c => decide (c.diagProps.keys = ["b", "c"])) = true ∧
    Exc.failsWith (compositeConstruct Demo.reg Demo.order {} .tendency
      ((Demo.sumComps.drop 2 ++ Demo.sumComps.drop 2).map fun c => (c.cls, c.obj))) .sharedKey = true := by
  decide +kernel

example : Exc.test (callDiagnosticComposite
      [⟨Demo.cls, Demo.tendObj, fun s _ => (s + 1, .ok [("a", Demo.prof)])⟩,
       ⟨Demo.cls, Demo.tendObj, fun s _ => (s + 1, .ok [("b", Demo.temp)])⟩] 0 Demo.state).2
      (fun d => decide (Dict.keys d = ["a", "b"])) = true ∧
    Exc.failsWith (callDiagnosticComposite
      [⟨Demo.cls, Demo.tendObj, fun s _ => (s + 1, .ok [("a", Demo.prof)])⟩,
       ⟨Demo.cls, Demo.tendObj, fun s _ => (s + 1, .ok [("a", Demo.temp)])⟩] 0 Demo.state).2 .sharedKey = true := by
  decide +kernel

/-- **C29 is false of tendency composites.**  Two tracer components of the same name
with tendencies in their diagnostics form a composite without complaint; its call
returns only the second one's `h_tendency_from_me`. -/
theorem tracer_tendency_overwritten :
    Exc.test (compositeConstruct Demo.reg Demo.order Demo.trG .tendency
      ([Demo.trComp 1, Demo.trComp 2].map fun c => (c.cls, c.obj))) (fun _ => true) = true ∧
    Exc.test ((Demo.trComp 1).callT 0 Demo.state).2 (fun r1 =>
      Exc.test ((Demo.trComp 2).callT 1 Demo.state).2 fun r2 =>
      Exc.test (callTendencyComposite Demo.reg [Demo.trComp 1, Demo.trComp 2] 0 Demo.state).2 fun r =>
        Exc.test (r1.2.get "h_tendency_from_me") fun a1 =>
        Exc.test (r2.2.get "h_tendency_from_me") fun a2 =>
        Exc.test (r.2.get "h_tendency_from_me") fun a =>
          decide (Dict.keys r.2 = ["h_tendency_from_me"] ∧ a1.arr.get [0] = 1000 ∧ a2.arr.get [0] = 2000 ∧
            a.arr.get [0] = 2000)) = true := by
  decide +kernel

end Verif
