import Verif.Lemmas.NestedComposite
import Verif.Props.CompositeConstruct
/-!
# C84: composites of composites

A composite of some components can itself be used as a component of a composite.
Replacing the group by its members makes no difference to calls.  It makes none to the
construction when the group comes first and declares the dims of its tendencies, and
does otherwise.
-/

namespace Verif

/-- Whatever the call returns is well formed. -/
def WellFormedCall {σ : Type} (f : σ → σ × Except Err TendOut) : Prop :=
  ∀ s r, (f s).2 = .ok r → r.1.keys.Nodup ∧ ∀ n a, r.1.get? n = some a → a.WF

theorem WellFormedCall.all {σ : Type} {fs : List (σ → σ × Except Err TendOut)} (h : ∀ f ∈ fs, WellFormedCall f)
    (s : σ) : WellFormedReturns fs s := by
  intro rs hrs r hr
  obtain ⟨f, hf, s0, h0⟩ := mem_runAll (Prod.ext (x := runAll fs s) rfl hrs) hr
  exact h f hf s0 r h0

/-- What a composite returns for a quantity stands for what its components return. -/
theorem inner_sumsUp {σ : Type} {R : Registry} (hR : R.Faithful) {gs : List (σ → σ × Except Err TendOut)}
    (hwf : ∀ f ∈ gs, WellFormedCall f) {s s' : σ} {t d : Dict DataArray}
    (h : compositeLoop R gs s [] [] = (s', .ok (t, d))) :
    ∃ rs, runAll gs s = (s', .ok rs) ∧ d = rs.foldl (fun e r => Dict.update e r.2) [] ∧ t.keys.Nodup ∧ ∀ n,
      Addable R (contribs n (rs.map (·.1))) ∧
      (t.get? n = none → contribs n (rs.map (·.1)) = []) ∧
      ∀ q, t.get? n = some q → q.WF ∧ SumsUp (contribs n (rs.map (·.1))) q ∧
        ((∀ c ∈ contribs n (rs.map (·.1)), Multiplicative R c) →
          ∀ ix, physAt R ix q = ((contribs n (rs.map (·.1))).map (physAt R ix)).sum) := by
  have hret := WellFormedCall.all hwf s
  obtain ⟨rs, h1, h2, h3⟩ := compositeLoop_ok h
  obtain ⟨rs', h1', hsum⟩ := composite_tendencies_sum R hR gs s s' t d hret h
  rw [h1] at h1'; cases h1'
  refine ⟨rs, h1, h3, sumAll_nodup h2 List.nodup_nil, ?_⟩
  intro n
  obtain ⟨k1, k2⟩ := hsum n
  refine ⟨(composite_succeeds_iff R hR gs s s' rs hret h1).1 ⟨_, by rw [h]⟩ n, ?_, ?_⟩
  · intro hn
    rw [List.eq_nil_iff_forall_not_mem]
    intro c hc
    obtain ⟨e, he, hc⟩ := mem_contribs.1 hc
    obtain ⟨r, hr, rfl⟩ := List.mem_map.1 he
    exact (Dict.get?_eq_none_iff _ _).1 hn (k1.2 ⟨r, hr, Dict.mem_keys_of_get? hc⟩)
  · intro q hq
    obtain ⟨q1, q2, q3, q4, q5⟩ := k2 q hq
    exact ⟨q1, ⟨q2, q3, q4⟩, q5⟩

/-- **C84, calls.**  Calling a composite one of whose members is a composite of `gs`
succeeds exactly if calling the composite of all the components does.  Both then leave
the components in the same state, return the same diagnostics, and tendencies of the same
quantities, with the same attributes, dims and lengths, and the same physical values. -/
theorem nested_call {σ : Type} (R : Registry) (hR : R.Faithful) (fs gs hs : List (σ → σ × Except Err TendOut))
    (hwf : ∀ f ∈ fs ++ gs ++ hs, WellFormedCall f) (s : σ) :
    ((∃ s' o, compositeLoop R (fs ++ (fun w => compositeLoop R gs w [] []) :: hs) s [] [] = (s', .ok o)) ↔
      ∃ s' o, compositeLoop R (fs ++ gs ++ hs) s [] [] = (s', .ok o)) ∧
    ∀ s1 t d s2 t' d',
      compositeLoop R (fs ++ (fun w => compositeLoop R gs w [] []) :: hs) s [] [] = (s1, .ok (t, d)) →
      compositeLoop R (fs ++ gs ++ hs) s [] [] = (s2, .ok (t', d')) →
      s1 = s2 ∧ d = d' ∧ (∀ n, n ∈ t.keys ↔ n ∈ t'.keys) ∧
      ∀ n q q', t.get? n = some q → t'.get? n = some q' →
        q.attrs = q'.attrs ∧ (∀ x, x ∈ q.dims ↔ x ∈ q'.dims) ∧ (∀ x ∈ q.dims, q.len x = q'.len x) ∧
        ((∀ f ∈ fs ++ gs ++ hs, ∀ w r, (f w).2 = .ok r → ∀ a, r.1.get? n = some a → Multiplicative R a) →
          ∀ ix, physAt R ix q = physAt R ix q') := by
  have hwfs : ∀ f ∈ fs, WellFormedCall f := fun f hf => hwf f (by simp [hf])
  have hwgs : ∀ f ∈ gs, WellFormedCall f := fun f hf => hwf f (by simp [hf])
  have hwhs : ∀ f ∈ hs, WellFormedCall f := fun f hf => hwf f (by simp [hf])
  have hwin : WellFormedCall (fun w => compositeLoop R gs w [] []) := by
    intro w r hr
    obtain ⟨rs, _, _, h3, h4⟩ := inner_sumsUp hR hwgs (Prod.ext (x := compositeLoop R gs w [] []) rfl hr)
    exact ⟨h3, fun n a ha => ((h4 n).2.2 a ha).1⟩
  have hwn : ∀ f ∈ fs ++ (fun w => compositeLoop R gs w [] []) :: hs, WellFormedCall f := by
    intro f hf
    rcases List.mem_append.1 hf with hf | hf
    · exact hwfs f hf
    · rcases List.mem_cons.1 hf with rfl | hf
      · exact hwin
      · exact hwhs f hf
  have hrn := WellFormedCall.all hwn s
  have hrf := WellFormedCall.all hwf s
  -- how the two runs correspond
  have hcor : ∀ s1 s2 sa ra tg dg rb rg, runAll fs s = (sa, .ok ra) →
      compositeLoop R gs sa [] [] = (s1, .ok (tg, dg)) → runAll gs sa = (s1, .ok rg) → runAll hs s1 = (s2, .ok rb) →
      (∀ n, Addable R (contribs n ((ra ++ (tg, dg) :: rb).map (·.1))) ↔
        Addable R (contribs n ((ra ++ rg ++ rb).map (·.1)))) := by
    intro s1 s2 sa ra tg dg rb rg h1 h2 h3 h4 n
    obtain ⟨rg', k1, _, _, k4⟩ := inner_sumsUp hR hwgs h2
    rw [h3] at k1; cases k1
    obtain ⟨a1, a2, a3⟩ := k4 n
    simp only [List.map_append, List.map_cons, contribs_append]
    cases hq : tg.get? n with
    | none => rw [contribs_cons_none _ hq, a2 hq, List.append_nil]
    | some q => rw [contribs_cons_some _ hq]; exact (a3 q hq).2.1.addable a1
  constructor
  · constructor
    · rintro ⟨s2, ⟨t, d⟩, h⟩
      obtain ⟨rs, h1, h2, h3⟩ := compositeLoop_ok h
      obtain ⟨sa, ra, rb', r1, r2, rfl⟩ := (runAll_append _ _ _ _ _).1 h1
      obtain ⟨s1, ⟨tg, dg⟩, rb, r3, r4, rfl⟩ := (runAll_cons _ _ _ _ _).1 r2
      obtain ⟨rg, k1, _⟩ := inner_sumsUp hR hwgs r3
      have hrun : runAll (fs ++ gs ++ hs) s = (s2, .ok (ra ++ rg ++ rb)) :=
        (runAll_append _ _ _ _ _).2 ⟨s1, ra ++ rg, rb, (runAll_append _ _ _ _ _).2 ⟨sa, ra, rg, r1, k1, rfl⟩, r4, rfl⟩
      have hadd := (composite_succeeds_iff R hR _ s s2 _ hrn h1).1 ⟨_, by rw [h]⟩
      obtain ⟨o, ho⟩ := (composite_succeeds_iff R hR _ s s2 _ hrf hrun).2
        (fun n => (hcor s1 s2 sa ra tg dg rb rg r1 r3 k1 r4 n).1 (hadd n))
      exact ⟨_, o, Prod.ext rfl ho⟩
    · rintro ⟨s2, ⟨t, d⟩, h⟩
      obtain ⟨rs, h1, h2, h3⟩ := compositeLoop_ok h
      obtain ⟨s1, rag, rb, r1, r2, rfl⟩ := (runAll_append _ _ _ _ _).1 h1
      obtain ⟨sa, ra, rg, r3, r4, rfl⟩ := (runAll_append _ _ _ _ _).1 r1
      have hadd := (composite_succeeds_iff R hR _ s s2 _ hrf h1).1 ⟨_, by rw [h]⟩
      obtain ⟨⟨tg, dg⟩, hi⟩ := (composite_succeeds_iff R hR gs sa s1 rg (WellFormedCall.all hwgs sa) r4).2 (by
        intro n
        refine (hadd n).sublist ?_
        simp only [List.map_append, contribs_append]
        exact (List.sublist_append_right _ _).trans (List.sublist_append_left _ _))
      have hi' : compositeLoop R gs sa [] [] = (s1, .ok (tg, dg)) := by
        obtain ⟨rg', k1, _⟩ := inner_sumsUp hR hwgs (Prod.ext (x := compositeLoop R gs sa [] []) rfl hi)
        rw [r4] at k1
        exact Prod.ext (congrArg Prod.fst k1).symm hi
      have hrun : runAll (fs ++ (fun w => compositeLoop R gs w [] []) :: hs) s = (s2, .ok (ra ++ (tg, dg) :: rb)) :=
        (runAll_append _ _ _ _ _).2 ⟨sa, ra, _, r3, (runAll_cons _ _ _ _ _).2 ⟨s1, (tg, dg), rb, hi', r2, rfl⟩, rfl⟩
      obtain ⟨o, ho⟩ := (composite_succeeds_iff R hR _ s s2 _ hrn hrun).2
        (fun n => (hcor s1 s2 sa ra tg dg rb rg r3 hi' r4 r2 n).2 (hadd n))
      exact ⟨_, o, Prod.ext rfl ho⟩
  · intro s2 t d s2' t' d' h h'
    obtain ⟨rs, h1, h2, h3⟩ := compositeLoop_ok h
    obtain ⟨sa, ra, rb', r1, r2, rfl⟩ := (runAll_append _ _ _ _ _).1 h1
    obtain ⟨s1, ⟨tg, dg⟩, rb, r3, r4, rfl⟩ := (runAll_cons _ _ _ _ _).1 r2
    obtain ⟨rg, k1, k2, k3, k4⟩ := inner_sumsUp hR hwgs r3
    have hrun : runAll (fs ++ gs ++ hs) s = (s2, .ok (ra ++ rg ++ rb)) :=
      (runAll_append _ _ _ _ _).2 ⟨s1, ra ++ rg, rb, (runAll_append _ _ _ _ _).2 ⟨sa, ra, rg, r1, k1, rfl⟩, r4, rfl⟩
    obtain ⟨rs', h1', h2', h3'⟩ := compositeLoop_ok h'
    rw [hrun] at h1'; cases h1'
    obtain ⟨_, e1, hsum⟩ := composite_tendencies_sum R hR _ s _ t d hrn h
    rw [h1] at e1; cases e1
    obtain ⟨_, e1, hsum'⟩ := composite_tendencies_sum R hR _ s _ t' d' hrf h'
    rw [hrun] at e1; cases e1
    have hkeys : ∀ n, n ∈ tg.keys ↔ ∃ r ∈ rg, n ∈ Dict.keys r.1 := by
      obtain ⟨_, e1, hsg⟩ := composite_tendencies_sum R hR _ sa _ tg dg (WellFormedCall.all hwgs sa) r3
      rw [k1] at e1; cases e1
      exact fun n => (hsg n).1
    refine ⟨rfl, ?_, ?_, ?_⟩
    · rw [h3, h3', List.foldl_append, List.foldl_cons, List.foldl_append, List.foldl_append, k2]
      congr 1
      exact (foldl_update_from rg _ (e := []) List.nodup_nil).symm
    · intro n
      rw [(hsum n).1, (hsum' n).1]
      simp only [List.mem_append, List.mem_cons]
      constructor
      · rintro ⟨r, hr | rfl | hr, hn⟩
        · exact ⟨r, Or.inl (Or.inl hr), hn⟩
        · obtain ⟨r', hr', hn'⟩ := (hkeys n).1 hn
          exact ⟨r', Or.inl (Or.inr hr'), hn'⟩
        · exact ⟨r, Or.inr hr, hn⟩
      · rintro ⟨r, (hr | hr) | hr, hn⟩
        · exact ⟨r, Or.inl hr, hn⟩
        · exact ⟨(tg, dg), Or.inr (Or.inl rfl), (hkeys n).2 ⟨r, hr, hn⟩⟩
        · exact ⟨r, Or.inr (Or.inr hr), hn⟩
    · intro n q q' hq hq'
      obtain ⟨_, ⟨c0, rest, b1, b2⟩, b3, b4, b5⟩ := (hsum n).2 q hq
      obtain ⟨_, ⟨c0', rest', b1', b2'⟩, b3', b4', b5'⟩ := (hsum' n).2 q' hq'
      obtain ⟨_, a2, a3⟩ := k4 n
      simp only [List.map_append, List.map_cons, contribs_append] at b1 b3 b4 b5 b1' b3' b4' b5'
      have hmul : (∀ f ∈ fs ++ gs ++ hs, ∀ w r, (f w).2 = .ok r → ∀ a, r.1.get? n = some a → Multiplicative R a) →
          ∀ c ∈ contribs n (ra.map (·.1)) ++ contribs n (rg.map (·.1)) ++ contribs n (rb.map (·.1)),
            Multiplicative R c := by
        intro hm c hc
        rw [← contribs_append, ← contribs_append, ← List.map_append, ← List.map_append] at hc
        obtain ⟨e, he, hc⟩ := mem_contribs.1 hc
        obtain ⟨r, hr, rfl⟩ := List.mem_map.1 he
        obtain ⟨f, hf, w, hw⟩ := mem_runAll hrun hr
        exact hm f hf w r hw c hc
      cases hg : tg.get? n with
      | none =>
        have hG := a2 hg
        rw [contribs_cons_none _ hg] at b1 b3 b4 b5
        rw [hG, List.append_nil] at b1' b3' b4' b5' hmul
        rw [b1] at b1'; cases b1'
        have hdims : ∀ x, x ∈ q.dims ↔ x ∈ q'.dims := fun x => by rw [b3, b3']
        refine ⟨b2.trans b2'.symm, hdims, ?_, ?_⟩
        · intro x hx
          obtain ⟨c, hc, hxc⟩ := (b3 x).1 hx
          rw [b4 c hc x hxc, b4' c hc x hxc]
        · intro hm ix
          refine (b5 (hmul hm) ix).trans ((b5' (hmul hm) ix).trans ?_).symm
          simp
      | some g =>
        obtain ⟨_, hst, hph⟩ := a3 g hg
        rw [contribs_cons_some _ hg] at b1 b3 b4 b5
        obtain ⟨g0, grest, hG, hga⟩ := hst.head
        refine ⟨?_, ?_, ?_, ?_⟩
        · rw [b2, b2']
          cases hA : contribs n (ra.map (·.1)) with
          | nil =>
            rw [hA] at b1 b1'
            rw [hG] at b1'
            cases b1; cases b1'
            exact hga
          | cons x xs =>
            rw [hA] at b1 b1'
            cases b1; cases b1'
            rfl
        · intro x
          rw [b3, b3']
          constructor
          · rintro ⟨c, hc, hx⟩
            rcases List.mem_append.1 hc with hc | hc
            · exact ⟨c, by simp [hc], hx⟩
            · rcases List.mem_cons.1 hc with rfl | hc
              · obtain ⟨c', hc', hx'⟩ := (hst.dims x).1 hx
                exact ⟨c', by simp [hc'], hx'⟩
              · exact ⟨c, by simp [hc], hx⟩
          · rintro ⟨c, hc, hx⟩
            rcases List.mem_append.1 hc with hc | hc
            · rcases List.mem_append.1 hc with hc | hc
              · exact ⟨c, by simp [hc], hx⟩
              · exact ⟨g, by simp, (hst.dims x).2 ⟨c, hc, hx⟩⟩
            · exact ⟨c, by simp [hc], hx⟩
        · intro x hx
          obtain ⟨c, hc, hxc⟩ := (b3 x).1 hx
          rw [b4 c hc x hxc]
          rcases List.mem_append.1 hc with hc | hc
          · rw [b4' c (by simp [hc]) x hxc]
          · rcases List.mem_cons.1 hc with rfl | hc
            · obtain ⟨c', hc', hx'⟩ := (hst.dims x).1 hxc
              rw [hst.lens c' hc' x hx', b4' c' (by simp [hc']) x hx']
            · rw [b4' c (by simp [hc]) x hxc]
        · intro hm ix
          have hm' := hmul hm
          have hmG : ∀ c ∈ contribs n (rg.map (·.1)), Multiplicative R c := fun c hc => hm' c (by simp [hc])
          have hmg : Multiplicative R g := by
            have := hmG g0 (by rw [hG]; simp)
            intro own u h1 h2
            rw [hga] at h1
            exact this own u h1 h2
          rw [b5 ?_ ix, b5' hm' ix]
          · simp only [List.map_cons, List.sum_append, List.sum_cons]
            rw [hph hmG ix, add_assoc]
          · intro c hc
            rcases List.mem_append.1 hc with hc | hc
            · exact hm' c (by simp [hc])
            · rcases List.mem_cons.1 hc with rfl | hc
              · exact hmg
              · exact hm' c (by simp [hc])

theorem addInto_empty (R : Registry) {t : Dict DataArray} (ht : t.keys.Nodup) : addInto R t [] = .ok t := by
  have : ∀ (t u : Dict DataArray), t.keys.Nodup → (∀ n ∈ t.keys, n ∉ u.keys) →
      addInto R t u = .ok (u.update t) := by
    intro t
    induction t with
    | nil => intro u _ _; rfl
    | cons kv t ih =>
      obtain ⟨k, v⟩ := kv
      intro u hn hd
      rw [Dict.keys_cons, List.nodup_cons] at hn
      have hk : u.get? k = none := (Dict.get?_eq_none_iff _ _).2 (hd k (by simp))
      rw [addInto_cons, hk]
      show addInto R t (u.set k v) = _
      rw [ih _ hn.2, Dict.update_cons]
      intro n hn' hm
      rcases (Dict.mem_keys_set _ _ _ _).1 hm with rfl | hm
      · exact hn.1 hn'
      · exact hd n (by simp [hn']) hm
  rw [this t [] ht (by simp), Dict.nil_update ht]

/-- **C84, a composite that comes first.**  If the group comes first, the two composites
do exactly the same, errors included. -/
theorem nested_call_first {σ : Type} (R : Registry) (gs hs : List (σ → σ × Except Err TendOut)) (s : σ) :
    compositeLoop R ((fun w => compositeLoop R gs w [] []) :: hs) s [] [] = compositeLoop R (gs ++ hs) s [] [] := by
  have happ : ∀ (l : List (σ → σ × Except Err TendOut)) (w : σ) (t d : Dict DataArray),
      compositeLoop R (l ++ hs) w t d =
        match compositeLoop R l w t d with
        | (w', .ok (t', d')) => compositeLoop R hs w' t' d'
        | (w', .error e) => (w', .error e) := by
    intro l
    induction l with
    | nil => intro w t d; rfl
    | cons f l ih =>
      intro w t d
      rw [List.cons_append, compositeLoop, compositeLoop]
      cases (f w).2 with
      | error e => rfl
      | ok r =>
        dsimp only
        cases addInto R r.1 t with
        | error e => rfl
        | ok t' => exact ih _ _ _
  rw [happ, compositeLoop]
  rcases hi : compositeLoop R gs s [] [] with ⟨s1, r⟩
  cases r with
  | error e => rfl
  | ok r =>
    obtain ⟨t, d⟩ := r
    dsimp only
    obtain ⟨rs, _, h2, h3⟩ := compositeLoop_ok hi
    rw [addInto_empty R (sumAll_nodup h2 List.nodup_nil)]
    dsimp only
    rw [Dict.nil_update]
    rw [h3]
    have : ∀ (rs : List TendOut) (e : Dict DataArray), e.keys.Nodup →
        (rs.foldl (fun d r => d.update r.2) e).keys.Nodup := by
      intro rs
      induction rs with
      | nil => intro e he; exact he
      | cons r rs ih => intro e he; exact ih _ (Dict.nodup_keys_update he _)
    exact this rs [] List.nodup_nil

/-- **C84, DiagnosticComponentComposite.**  A diagnostic composite one of whose members is
a diagnostic composite succeeds exactly if the composite of all the components does, with
the same result and leaving the components in the same state. -/
theorem nested_diagnostic_call {σ : Type} (fs gs hs : List (σ → σ × Except Err (Dict DataArray))) (s s' : σ)
    (out : Dict DataArray) :
    diagnosticLoop (fs ++ (fun w => diagnosticLoop gs w []) :: hs) s [] = (s', .ok out) ↔
      diagnosticLoop (fs ++ gs ++ hs) s [] = (s', .ok out) := by
  rw [List.append_assoc, diagnosticLoop_append, diagnosticLoop_append]
  constructor
  · rintro ⟨s1, m, h1, h2⟩
    obtain ⟨s2, r, h3, h4, h5⟩ := (diagnosticLoop_cons _ _ _ _ _ _).1 h2
    refine ⟨s1, m, h1, (diagnosticLoop_append _ _ _ _ _ _).2 ⟨s2, m.update r, ?_, h5⟩⟩
    exact (diagnosticLoop_from gs s1 s2 m [] _ List.nodup_nil (by simp)).2 ⟨r, h3, h4, rfl⟩
  · rintro ⟨s1, m, h1, h2⟩
    obtain ⟨s2, m', h3, h4⟩ := (diagnosticLoop_append _ _ _ _ _ _).1 h2
    obtain ⟨r, h5, h6, rfl⟩ := (diagnosticLoop_from gs s1 s2 m [] _ List.nodup_nil (by simp)).1 h3
    exact ⟨s1, m, h1, (diagnosticLoop_cons _ _ _ _ _ _).2 ⟨s2, r, h5, h6, h4⟩⟩

/-! ## Construction -/

/-- What `isinstance` sees of a composite (composite.py:102-106, 167-171, 244-249): it
inherits from the base class of its kind, and its `__call__` has the arguments of that
class (134, 205, 253). -/
def compositeObj (k : Kind) : Obj :=
  { attrs := (classAttrs k).filter (· ≠ "__call__"), bases := [k], call := some ⟨classCallArgs k, []⟩ }

/-- **C84, which composites can be nested.**  A composite accepts composites of its own
kind; ImplicitTendencyComponentComposite also accepts TendencyComponentComposite. -/
theorem nested_accepted (k k' : Kind) (hk : k ≠ .stepper) (hk' : k' ≠ .stepper) :
    acceptedBy k (compositeObj k') = true ↔ k = k' ∨ (k = .implicit ∧ k' = .tendency) := by
  cases k <;> cases k' <;> first | (exact absurd rfl hk) | (exact absurd rfl hk') | decide +kernel

theorem combineEntry_withDims {R : Registry} {o : SetOrder} (inP inP' : PropDict) (out : PropDict) {n : String}
    {p : QProps} (hp : p.dims.isSome) : combineEntry R o inP out n p = combineEntry R o inP' out n p := by
  have : combineEffDims inP n p = combineEffDims inP' n p := by
    unfold combineEffDims
    cases hd : p.dims with
    | none => rw [hd] at hp; cases hp
    | some d => rfl
  unfold combineEntry
  rw [this]

theorem combineDict_withDims {R : Registry} {o : SetOrder} (inP inP' : PropDict) (l out : PropDict)
    (hl : ∀ kv ∈ l, kv.2.dims.isSome) : combineDict R o inP l out = combineDict R o inP' l out := by
  induction l generalizing out with
  | nil => rfl
  | cons kv l ih =>
    obtain ⟨n, p⟩ := kv
    unfold combineDict
    rw [combineEntry_withDims inP inP' out (hl (n, p) (by simp))]
    congr 1
    funext r
    exact ih r (fun kv h => hl kv (List.mem_cons_of_mem _ h))

theorem combineEntry_haveDims {R : Registry} {o : SetOrder} {inP out out' : PropDict} {n : String} {p : QProps}
    (h : combineEntry R o inP out n p = .ok out') (hn : out.keys.Nodup) (hout : ∀ kv ∈ out, kv.2.dims.isSome) :
    ∀ kv ∈ out', kv.2.dims.isSome := by
  have hn' := combineEntry_nodup hn h
  obtain ⟨c1, c2, c3⟩ := combineEntry_ok h
  rintro ⟨k, q⟩ hkv
  have hg := Dict.get?_of_mem hn' hkv
  by_cases hk : k = n
  · subst hk
    rcases c3 with ⟨_, r', h1, _, _, _, h2⟩ | ⟨_, r', _, _, d, _, _, _, h1, h2, _⟩
    · rw [h1] at hg; cases hg; exact h2
    · rw [h1] at hg; cases hg; rw [h2]; rfl
  · rw [c1 k hk] at hg
    exact hout _ (Dict.mem_of_get? hg)

theorem combineDict_haveDims {R : Registry} {o : SetOrder} {inP : PropDict} (l : PropDict) {out out' : PropDict}
    (h : combineDict R o inP l out = .ok out') (hn : out.keys.Nodup) (hout : ∀ kv ∈ out, kv.2.dims.isSome) :
    ∀ kv ∈ out', kv.2.dims.isSome := by
  induction l generalizing out with
  | nil => cases h; exact hout
  | cons kv l ih =>
    obtain ⟨k, p⟩ := kv
    unfold combineDict at h
    obtain ⟨mid, hm, h⟩ := Exc.bind_ok_iff.1 h
    exact ih h (combineEntry_nodup hn hm) (combineEntry_haveDims hm hn hout)

/-- Combining with new quantities only appends them. -/
theorem combineDict_fresh {R : Registry} {o : SetOrder} {inP : PropDict} (l out : PropDict)
    (hl : ∀ kv ∈ l, kv.2.dims.isSome) (hn : Dict.keys l |>.Nodup) (hd : ∀ n ∈ Dict.keys l, n ∉ out.keys) :
    combineDict R o inP l out = .ok (out.update l) := by
  induction l generalizing out with
  | nil => rfl
  | cons kv l ih =>
    obtain ⟨k, p⟩ := kv
    rw [Dict.keys_cons, List.nodup_cons] at hn
    have hk : out.get? k = none := (Dict.get?_eq_none_iff _ _).2 (hd k (by simp))
    obtain ⟨d, hpd⟩ := Option.isSome_iff_exists.1 (hl (k, p) (by simp))
    have he : combineEntry R o inP out k p = .ok (out.set k p) := by
      unfold combineEntry combineEffDims
      rw [hk, hpd]
      dsimp only
      rw [← hpd]
    unfold combineDict
    rw [he, Exc.ok_bind, ih _ (fun kv h => hl kv (List.mem_cons_of_mem _ h)) hn.2, Dict.update_cons]
    intro n hn' hm
    rcases (Dict.mem_keys_set _ _ _ _).1 hm with rfl | hm
    · exact hn.1 hn'
    · exact hd n (by simp [hn']) hm

/-- Combining what has been combined before is combining everything. -/
theorem combineProperties_nested {R : Registry} {o : SetOrder} {inP inP' : PropDict} {l m : List PropDict}
    {r : PropDict} (h : combineProperties R o l inP' = .ok r)
    (hl : inP = inP' ∨ ∀ kv ∈ l.flatten, kv.2.dims.isSome) :
    combineProperties R o (r :: m) inP = combineProperties R o (l ++ m) inP := by
  unfold combineProperties at h ⊢
  rw [combineLoop_eq] at h ⊢
  rw [combineLoop_eq, List.flatten_cons, List.flatten_append, combineDict_append, combineDict_append]
  have h' : combineDict R o inP l.flatten [] = .ok r := by
    rcases hl with rfl | hl
    · exact h
    · rw [combineDict_withDims inP inP' _ _ hl]; exact h
  rw [h', combineDict_fresh r [] (combineDict_haveDims _ (out := []) h List.nodup_nil (by simp))
    (combineDict_nodup _ (out := []) List.nodup_nil h) (by simp), Dict.nil_update (combineDict_nodup _ (out := []) List.nodup_nil h)]

theorem mapM_append_ok {α β : Type} {f : α → Except Err β} {a : List α} {ra : List β} (h : a.mapM f = .ok ra)
    (b : List α) : (a ++ b).mapM f = (b.mapM f >>= fun rb => .ok (ra ++ rb)) := by
  rw [List.mapM_append, h]
  rfl

theorem compositeDiagLoop_append (a b : List Class) (out : PropDict) :
    compositeDiagLoop (a ++ b) out = (compositeDiagLoop a out >>= compositeDiagLoop b) := by
  induction a generalizing out with
  | nil => rfl
  | cons c a ih =>
    rw [List.cons_append, compositeDiagLoop, compositeDiagLoop]
    cases ensureNoSharedKeys c.diagProps out with
    | error e => rfl
    | ok u => exact ih _

theorem compositeDiagLoop_nodup {cs : List Class} {out res : PropDict} (h : compositeDiagLoop cs out = .ok res)
    (hn : out.keys.Nodup) : res.keys.Nodup := by
  induction cs generalizing out with
  | nil => cases h; exact hn
  | cons c cs ih =>
    rw [compositeDiagLoop] at h
    obtain ⟨_, _, h⟩ := Exc.bind_ok_iff.1 h
    exact ih h (Dict.nodup_keys_update hn _)

/-- **C84, construction (partial).**  If the group comes first and declares the dims of its
tendencies, and a composite of it can be constructed, then using that composite or the
group itself gives the same result: the same error, or a composite that declares the same.
Missing: groups in other places, and tendencies that take their dims from an input; both
can make a difference, see below. -/
theorem nested_construct_partial (R : Registry) (o : SetOrder) (g : Tracers) (k k' : Kind)
    (hk : k = k' ∨ (k = .implicit ∧ k' = .tendency)) (gs cs : List (Class × Obj)) (ci : Class)
    (hci : compositeConstruct R o g k' gs = .ok ci)
    (hdims : ∀ c ∈ gs, ∀ kv ∈ c.1.outProps, kv.2.dims.isSome) (hst : k' ≠ .stepper) :
    compositeConstruct R o g k ((ci, compositeObj k') :: cs) = compositeConstruct R o g k (gs ++ cs) := by
  unfold compositeConstruct at hci
  by_cases hacc : gs.all (fun c => acceptedBy k' c.2) = true
  case neg => rw [if_neg hacc] at hci; cases hci
  rw [if_pos hacc] at hci
  obtain ⟨inI, hin, hci⟩ := Exc.bind_ok_iff.1 hci
  obtain ⟨diagI, hdiag, hci⟩ := Exc.bind_ok_iff.1 hci
  obtain ⟨tendI, htend, hci⟩ := Exc.bind_ok_iff.1 hci
  obtain ⟨_, _, hci⟩ := Exc.bind_ok_iff.1 hci
  injection hci with hci
  subst hci
  -- acceptance
  have hstk : k ≠ .stepper := by rcases hk with rfl | ⟨rfl, _⟩ <;> first | exact hst | decide
  have haccI : acceptedBy k (compositeObj k') = true := (nested_accepted k k' hstk hst).2 hk
  have haccg : gs.all (fun c => acceptedBy k c.2) = true := by
    rw [List.all_eq_true] at hacc ⊢
    intro c hc
    have := hacc c hc
    rcases hk with rfl | ⟨rfl, rfl⟩
    · exact this
    · have h' : isInstance .tendency c.2 = true := this
      show (isInstance .tendency c.2 || isInstance .implicit c.2) = true
      rw [h']; rfl
  have hdk : k = .diagnostic ↔ k' = .diagnostic := by
    rcases hk with rfl | ⟨rfl, rfl⟩
    · exact Iff.rfl
    · decide
  unfold compositeConstruct
  rw [List.all_cons, List.all_append, haccg]
  simp only [haccI, Bool.true_and]
  by_cases hcs : cs.all (fun c => acceptedBy k c.2) = true
  case neg => rw [if_neg hcs, if_neg hcs]
  rw [if_pos hcs, if_pos hcs]
  simp only [List.map_cons, List.map_append]
  -- inputs
  have hin' : combineInputs R o g
      ({ kind := k', inProps := inI, outProps := tendI, diagProps := diagI : Class } :: cs.map (·.1)) =
      combineInputs R o g (gs.map (·.1) ++ cs.map (·.1)) := by
    unfold combineInputs at hin ⊢
    obtain ⟨ls, hls, hin⟩ := Exc.bind_ok_iff.1 hin
    rw [mapM_append_ok hls, List.mapM_cons]
    have : inputContribution g { kind := k', inProps := inI, outProps := tendI, diagProps := diagI } =
        .ok [inI] := rfl
    rw [this]
    cases hm : (cs.map (·.1)).mapM (inputContribution g) with
    | error e => rfl
    | ok ms =>
      show combineProperties R o ([inI] :: ms).flatten = combineProperties R o (ls ++ ms).flatten
      rw [List.flatten_cons, List.flatten_append, List.singleton_append]
      exact combineProperties_nested hin (Or.inl rfl)
  rw [hin']
  congr 1
  funext inP
  -- diagnostics
  have hdiag' : compositeDiagProps
      ({ kind := k', inProps := inI, outProps := tendI, diagProps := diagI : Class } :: cs.map (·.1)) inP =
      compositeDiagProps (gs.map (·.1) ++ cs.map (·.1)) inP := by
    unfold compositeDiagProps at hdiag ⊢
    obtain ⟨d, hd, hdiag⟩ := Exc.bind_ok_iff.1 hdiag
    have hdd : d = diagI := by
      split at hdiag
      · injection hdiag
      · cases hdiag
    subst hdd
    rw [compositeDiagLoop_append, hd, compositeDiagLoop]
    have : ensureNoSharedKeys d ([] : PropDict) = .ok () := ensureNoSharedKeys_ok.2 (by simp)
    dsimp only
    rw [this, Exc.ok_bind, Exc.ok_bind, Dict.nil_update (compositeDiagLoop_nodup hd List.nodup_nil)]
  rw [hdiag']
  congr 1
  funext diag
  -- tendencies
  have htend' : (if k = .diagnostic then .ok [] else combineTendencies R o
      ({ kind := k', inProps := inI, outProps := tendI, diagProps := diagI : Class } :: cs.map (·.1)) inP) =
      (if k = .diagnostic then .ok [] else combineTendencies R o (gs.map (·.1) ++ cs.map (·.1)) inP) := by
    by_cases hkd : k = .diagnostic
    · rw [if_pos hkd, if_pos hkd]
    · rw [if_neg hkd, if_neg hkd]
      rw [if_neg (fun h => hkd (hdk.2 h))] at htend
      unfold combineTendencies at htend ⊢
      rw [List.map_cons, List.map_append]
      refine combineProperties_nested htend (Or.inr ?_)
      intro kv hkv
      obtain ⟨p, hp, hkv⟩ := List.mem_flatten.1 hkv
      obtain ⟨c, hc, rfl⟩ := List.mem_map.1 hp
      obtain ⟨c', hc', rfl⟩ := List.mem_map.1 hc
      exact hdims c' hc' kv hkv
  rw [htend']

/-- A tendency composite as a component: how it is called (composite.py:134, 205). -/
def asMember {σ : Type} (R : Registry) (k : Kind) (ci : Class) (gs : List (Comp σ)) : Comp σ where
  cls := ci
  obj := compositeObj k
  callT := fun s state => if k = .tendency then callTendencyComposite R gs s state else (s, .error .typeError)
  callI := fun s state dt => if k = .implicit then callImplicitComposite R gs s state dt else (s, .error .typeError)

/-- **C84, nested composites as components.**  Composites of one kind in each other, and a
TendencyComponentComposite of components without timestep in an
ImplicitTendencyComponentComposite, are called as `nested_call` assumes. -/
theorem nested_members {σ : Type} (R : Registry) (ci : Class) (fs gs hs : List (Comp σ)) (s : σ) (state : State)
    (dt : Int) :
    (callTendencyComposite R (fs ++ asMember R .tendency ci gs :: hs) s state =
      compositeLoop R (fs.map (fun c s => c.callT s state) ++
        (fun w => compositeLoop R (gs.map fun c s => c.callT s state) w [] []) ::
        hs.map (fun c s => c.callT s state)) s [] []) ∧
    (callImplicitComposite R (fs ++ asMember R .implicit ci gs :: hs) s state dt =
      compositeLoop R (fs.map (fun c => implicitCall c state dt) ++
        (fun w => compositeLoop R (gs.map fun c => implicitCall c state dt) w [] []) ::
        hs.map (fun c => implicitCall c state dt)) s [] []) ∧
    ((∀ c ∈ gs, isInstance .tendency c.obj = true ∧ isInstance .implicit c.obj = false) →
      callImplicitComposite R (fs ++ asMember R .tendency ci gs :: hs) s state dt =
      compositeLoop R (fs.map (fun c => implicitCall c state dt) ++
        (fun w => compositeLoop R (gs.map fun c => implicitCall c state dt) w [] []) ::
        hs.map (fun c => implicitCall c state dt)) s [] []) := by
  refine ⟨?_, ?_, ?_⟩
  · unfold callTendencyComposite
    rw [List.map_append, List.map_cons]
    rfl
  · unfold callImplicitComposite
    rw [List.map_append, List.map_cons]
    have : implicitCall (asMember R .implicit ci gs) state dt =
        fun w => compositeLoop R (gs.map fun c => implicitCall c state dt) w [] [] := by
      funext w
      have hi : isInstance .implicit (asMember R .implicit ci gs).obj = true := by
        show isInstance .implicit (compositeObj .implicit) = true
        decide +kernel
      unfold implicitCall
      rw [if_pos hi]
      rfl
    rw [this]
  · intro hg
    unfold callImplicitComposite
    rw [List.map_append, List.map_cons]
    have : implicitCall (asMember R .tendency ci gs) state dt =
        fun w => compositeLoop R (gs.map fun c => implicitCall c state dt) w [] [] := by
      have hmap : (gs.map fun c => implicitCall c state dt) = gs.map fun c s => c.callT s state := by
        refine List.map_congr_left ?_
        intro c hc
        funext w
        unfold implicitCall
        rw [if_neg (by rw [(hg c hc).2]; decide), if_pos (hg c hc).1]
      rw [hmap]
      funext w
      have hi : isInstance .implicit (asMember R .tendency ci gs).obj = false := by
        show isInstance .implicit (compositeObj .tendency) = false
        decide +kernel
      have ht : isInstance .tendency (asMember R .tendency ci gs).obj = true := by
        show isInstance .tendency (compositeObj .tendency) = true
        decide +kernel
      unfold implicitCall
      rw [if_neg (by rw [hi]; decide), if_pos ht]
      rfl
    rw [this]

/-! ## Concrete cases -/

namespace Demo.Nested

/-- A component with one input, with the given dims. -/
def reads (dims : List String) : Class × Obj :=
  ({ kind := .tendency, inProps := [("T", { dims := some dims, units := some "K" })], outProps := [], diagProps := [] },
   tendObj)

/-- A component with a tendency of `T` whose dims are those of its input. -/
def heats (dims : List String) : Class × Obj :=
  ({ kind := .tendency, inProps := [("T", { dims := some dims, units := some "K" })],
     outProps := [("T", { units := some "K s^-1" })], diagProps := [] }, tendObj)

/-- A component with a tendency of `T` with dims. -/
def cools (dims : List String) : Class × Obj :=
  ({ kind := .tendency, inProps := [("T", { dims := some dims, units := some "K" })],
     outProps := [("T", { dims := some dims, units := some "K s^-1" })], diagProps := [] }, tendObj)

/-- A component that returns `T` as a diagnostic and does not say its dims. -/
def knows : Class × Obj :=
  ({ kind := .tendency, inProps := [], outProps := [], diagProps := [("T", { units := some "K" })] }, tendObj)

/-- Construct with the last components nested. -/
def tailNested (a gs : List (Class × Obj)) : Except Err Class :=
  compositeConstruct reg order {} .tendency gs >>= fun ci =>
  compositeConstruct reg order {} .tendency (a ++ [(ci, compositeObj .tendency)])

/-- Construct with the first components nested. -/
def headNested (gs a : List (Class × Obj)) : Except Err Class :=
  compositeConstruct reg order {} .tendency gs >>= fun ci =>
  compositeConstruct reg order {} .tendency ((ci, compositeObj .tendency) :: a)

def flat (cs : List (Class × Obj)) : Except Err Class := compositeConstruct reg order {} .tendency cs

end Demo.Nested

open Demo.Nested in
/-- **C84 is false of groups that do not come first.**  Dims are combined from left to
right and `combine_dims` is not associative: a nested composite may be accepted where the
flat one is rejected, and the other way round. -/
theorem nesting_changes_acceptance :
    Exc.test (tailNested [reads ["x", "y"]] [reads ["*"], reads ["x", "y"]]) (fun _ => true) = true ∧
    Exc.failsWith (flat [reads ["x", "y"], reads ["*"], reads ["x", "y"]]) .invalidPropertyDict = true ∧
    Exc.test (flat [reads ["*", "y"], reads ["x"], reads ["x", "y"]]) (fun _ => true) = true ∧
    Exc.failsWith (tailNested [reads ["*", "y"]] [reads ["x"], reads ["x", "y"]]) .invalidPropertyDict = true := by
  decide +kernel

open Demo.Nested in
/-- **C84 is false of tendencies without dims.**  A tendency that takes its dims from the
input of the same name takes those of the inner composite if it is nested, and those of
the whole composite if it is not. -/
theorem nesting_changes_declared_dims :
    Exc.test (headNested [heats ["*"]] [reads ["z"]]) (fun c => decide
      ((c.outProps.get? "T").map (·.dims) = some (some ["*"]))) = true ∧
    Exc.test (flat [heats ["*"], reads ["z"]]) (fun c => decide
      ((c.outProps.get? "T").map (·.dims) = some (some ["z"]))) = true := by
  decide +kernel

open Demo.Nested in
/-- **C84 is false of diagnostics without dims.**  A diagnostic may take its dims from the
input of another component, which is not seen if it is nested. -/
theorem nesting_hides_inputs :
    Exc.test (flat [knows, reads ["z"]]) (fun _ => true) = true ∧
    Exc.failsWith (headNested [knows] [reads ["z"]]) .invalidPropertyDict = true := by
  decide +kernel

open Demo.Nested in
/-- Non-vacuity of `nested_construct_partial`: two components with tendencies nested
before a third. -/
example : Exc.test (headNested [cools ["*"], cools ["z"]] [cools ["z"]]) (fun c => decide
      ((c.outProps.get? "T").map (·.dims) = some (some ["z"]) ∧ c.inProps.keys = ["T"])) = true ∧
    Exc.test (flat [cools ["*"], cools ["z"], cools ["z"]]) (fun c => decide
      ((c.outProps.get? "T").map (·.dims) = some (some ["z"]) ∧ c.inProps.keys = ["T"])) = true := by
  decide +kernel

/-- Non-vacuity of `nested_call`: three components, the last two nested, with units and
dims mixed: each is called once, and the tendencies are those of the flat composite. -/
example :
    let fs := Demo.sumComps.map fun c (s : Nat) => c.callT s Demo.state
    let n := compositeLoop Demo.reg (fs.take 1 ++ [fun w => compositeLoop Demo.reg (fs.drop 1) w [] []]) 0 [] []
    let f := compositeLoop Demo.reg fs 0 [] []
    n.1 = 3 ∧ f.1 = 3 ∧ Exc.test n.2 (fun r => Exc.test f.2 fun r' =>
      decide (Dict.keys r.2 = ["a", "b", "c"] ∧ Dict.keys r'.2 = ["a", "b", "c"]) &&
      Exc.test (r.1.get "T") fun t => Exc.test (r'.1.get "T") fun t' =>
        decide (t.arr.get [2, 1, 0] = t'.arr.get [2, 1, 0] ∧ t.arr.get [2, 1, 0] = 3 + 120 / 86400 + 120)) = true := by
  decide +kernel

/-- Its hypotheses hold of these components. -/
example : ∀ f ∈ (Demo.sumComps.map fun c (s : Nat) => c.callT s Demo.state), WellFormedCall f := by
  intro f hf s r hr
  simp only [Demo.sumComps, List.map_cons, List.map_nil, List.mem_cons, List.not_mem_nil, or_false] at hf
  rcases hf with rfl | rfl | rfl
  all_goals
    injection hr with hr
    subst hr
    refine ⟨by decide, ?_⟩
    intro n a ha
    have := Dict.mem_of_get? ha
    simp only [List.mem_cons, List.not_mem_nil, or_false] at this
    cases this
    exact ⟨rfl, by decide⟩

/-- Non-vacuity of `nested_diagnostic_call`. -/
example :
    let f : String → DataArray → Nat → Nat × Except Err (Dict DataArray) := fun n a s => (s + 1, .ok [(n, a)])
    Exc.test (diagnosticLoop [f "a" Demo.prof, fun w => diagnosticLoop [f "b" Demo.temp, f "c" Demo.prof] w []] 0 []).2
      (fun d => decide (Dict.keys d = ["a", "b", "c"])) = true ∧
    Exc.failsWith (diagnosticLoop [f "a" Demo.prof, fun w => diagnosticLoop [f "b" Demo.temp, f "a" Demo.prof] w []]
      0 []).2 .sharedKey = true := by
  decide +kernel

end Verif
