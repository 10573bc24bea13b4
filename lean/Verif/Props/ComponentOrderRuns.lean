import Verif.Props.ComponentOrder
import Verif.Props.Composite
import Verif.Props.CombineDims
import Mathlib.Data.List.Perm.Basic
/-!
# C100: the order of the components of a time stepper does not matter
-/

namespace Verif

section
variable {σ : Type} {R : Registry}

/-- What a component returns, for some world. -/
def Returned (state : State) (dt : Int) (c : Comp σ) (r : TendOut) : Prop := ∃ s, (implicitCall c state dt s).2 = .ok r

theorem returned_runAll {state : State} {dt : Int} : ∀ {cs : List (Comp σ)} {s : σ} {rs : List TendOut},
    (runAll (cs.map fun c => implicitCall c state dt) s).2 = .ok rs → List.Forall₂ (Returned state dt) cs rs := by
  intro cs
  induction cs with
  | nil => intro s rs h; cases h; exact .nil
  | cons c cs ih =>
    intro s rs h
    rw [List.map_cons] at h
    unfold runAll at h
    cases hr : (implicitCall c state dt s).2 with
    | error e => rw [hr] at h; cases h
    | ok r =>
      rw [hr] at h
      dsimp only at h
      cases hrs : (runAll (cs.map fun c => implicitCall c state dt) (implicitCall c state dt s).1).2 with
      | error e => rw [hrs] at h; cases h
      | ok rs' =>
        rw [hrs] at h
        cases h
        exact .cons ⟨s, hr⟩ (ih hrs)

theorem runAll_isOk {state : State} {dt : Int} : ∀ {cs : List (Comp σ)} {s : σ},
    (∀ c ∈ cs, ∀ s, ∃ r, (implicitCall c state dt s).2 = .ok r) →
    ∃ rs, (runAll (cs.map fun c => implicitCall c state dt) s).2 = .ok rs := by
  intro cs
  induction cs with
  | nil => intro s _; exact ⟨[], rfl⟩
  | cons c cs ih =>
    intro s h
    obtain ⟨r, hr⟩ := h c List.mem_cons_self s
    obtain ⟨rs, hrs⟩ := ih (s := (implicitCall c state dt s).1) fun c hc => h c (List.mem_cons_of_mem _ hc)
    rw [List.map_cons]
    unfold runAll
    rw [hr]
    dsimp only
    rw [hrs]
    exact ⟨_, rfl⟩

theorem sameNamedDict_each {d d' : Dict DataArray} (h : SameNamedDict d d') : SameEach SameByName d d' := by
  intro n
  have := h n
  revert this
  cases d.get? n <;> cases d'.get? n <;> intro this
  · exact .none
  · exact this.elim
  · exact this.elim
  · exact .some this

theorem each_sameNamedDict {d d' : Dict DataArray} (h : SameEach SameByName d d') : SameNamedDict d d' := by
  intro n
  have := h n
  revert this
  cases d.get? n <;> cases d'.get? n <;> intro this
  · trivial
  · cases this
  · cases this
  · cases this with | some h => exact h

theorem contribs_rel {rs rs' : List TendOut} (h : List.Forall₂ (fun r r' => SameNamedDict r.1 r'.1) rs rs') (n : String) :
    List.Forall₂ SameByName (contribs n (rs.map (·.1))) (contribs n (rs'.map (·.1))) := by
  unfold contribs
  induction h with
  | nil => exact .nil
  | @cons a b l l' hab _ ih =>
    have := sameNamedDict_each hab n
    rw [List.map_cons, List.map_cons, List.filterMap_cons, List.filterMap_cons]
    revert this
    cases Dict.get? a.1 n <;> cases Dict.get? b.1 n <;> intro this
    · exact ih
    · cases this
    · cases this
    · cases this with | some h => exact .cons h ih

theorem Addable.rel {cs cs' : List DataArray} (h : List.Forall₂ SameByName cs cs') (ha : Addable R cs) : Addable R cs' := by
  rcases ha with hl | ⟨⟨dim, h1⟩, h2⟩
  · exact .inl (h.length_eq ▸ hl)
  · refine .inr ⟨⟨dim, fun c' hc' => ?_⟩, ?_⟩
    · obtain ⟨c, hc, hcc⟩ := forall₂_mem_right h hc'
      obtain ⟨own, u, e1, e2⟩ := h1 c hc
      exact ⟨own, u, hcc.attrs ▸ e1, e2⟩
    · clear h1
      induction h with
      | nil => exact .nil
      | @cons a b l l' hab hrest ih =>
        obtain ⟨g1, g2⟩ := List.pairwise_cons.1 h2
        refine List.pairwise_cons.2 ⟨fun c' hc' d hd hd' => ?_, ih g2⟩
        obtain ⟨c, hc, hcc⟩ := forall₂_mem_right hrest hc'
        rw [← hab.len d (hab.dims.mem_iff.2 hd), ← hcc.len d (hcc.dims.mem_iff.2 hd')]
        exact g1 c hc d (hab.dims.mem_iff.2 hd) (hcc.dims.mem_iff.2 hd')

theorem physAt_rel {a b : DataArray} (h : SameByName a b) {ix : String → Nat} (hix : ∀ d ∈ a.dims, ix d < a.len d) :
    physAt R ix a = physAt R ix b := by
  unfold physAt
  rw [h.attrs, h.val ix hix]

theorem foldl_update_get {n : String} : ∀ {rs : List TendOut} {d0 : Dict DataArray}, (∀ r ∈ rs, (Dict.keys r.2).Nodup) →
    rs.Pairwise (fun r r' => ∀ n, ¬ (n ∈ Dict.keys r.2 ∧ n ∈ Dict.keys r'.2)) →
    (∀ r ∈ rs, ∀ a, Dict.get? r.2 n = some a → (rs.foldl (fun d r => d.update r.2) d0).get? n = some a) ∧
    ((∀ r ∈ rs, Dict.get? r.2 n = none) → (rs.foldl (fun d r => d.update r.2) d0).get? n = d0.get? n) := by
  intro rs
  induction rs with
  | nil => intro d0 _ _; exact ⟨fun r hr => (by cases hr), fun _ => rfl⟩
  | cons r rs ih =>
    intro d0 hn hp
    obtain ⟨p1, p2⟩ := List.pairwise_cons.1 hp
    obtain ⟨i1, i2⟩ := ih (d0 := d0.update r.2) (fun r hr => hn r (List.mem_cons_of_mem _ hr)) p2
    have hu := Dict.get?_update d0 r.2 (hn r List.mem_cons_self) n
    rw [List.foldl_cons]
    refine ⟨fun r' hr' a ha => ?_, fun h => ?_⟩
    · rcases List.mem_cons.1 hr' with rfl | hr'
      · rw [i2, hu, ha]
        · rfl
        · intro r'' hr''
          exact (Dict.get?_eq_none_iff _ _).2 fun hm => p1 r'' hr'' n ⟨Dict.mem_keys_of_get? ha, hm⟩
      · exact i1 r' hr' a ha
    · rw [i2 fun r' hr' => h r' (List.mem_cons_of_mem _ hr'), hu, h r List.mem_cons_self]
      rfl

theorem pairwise_returned {state : State} {dt : Int} {cs : List (Comp σ)} {rs : List TendOut}
    (hs : ProperState state) (h : List.Forall₂ (Returned state dt) cs rs) (hp : cs.Pairwise DiagnosticsApart) :
    rs.Pairwise fun r r' => ∀ n, ¬ (n ∈ Dict.keys r.2 ∧ n ∈ Dict.keys r'.2) := by
  induction h with
  | nil => exact .nil
  | @cons c r l l' hcr hrest ih =>
    obtain ⟨g1, g2⟩ := List.pairwise_cons.1 hp
    refine List.pairwise_cons.2 ⟨fun r' hr' => ?_, ih g2⟩
    obtain ⟨c', hc', s', hw'⟩ := forall₂_mem_right hrest hr'
    obtain ⟨s, hw⟩ := hcr
    exact g1 c' hc' s s' state dt r r' hs hw hw'

theorem diagnosticsApart_perm {cs cs' : List (Comp σ)} (hp : cs.Perm cs') (h : cs.Pairwise DiagnosticsApart) :
    cs'.Pairwise DiagnosticsApart :=
  (hp.pairwise_iff fun {_ _} hcc s s' state dt r r' hst hr hr' n hn => hcc s' s state dt r' r hst hr' hr n hn.symm).1 h

/-- Half of what follows: if the components succeed in one order, they do in the other. -/
theorem composite_order_sim (hR : R.Faithful) {cs cs' : List (Comp σ)} (hp : cs.Perm cs')
    (hi : ∀ c ∈ cs, c.Independent R) (hd : cs.Pairwise DiagnosticsApart) (s s' : σ) {state state' : State} (dt : Int)
    (h : SameStates state state') :
    Sim (fun r r' => SameEach (SameRates R) r.1 r'.1 ∧ SameNamedDict r.2 r'.2) (callImplicitComposite R cs s state dt).2
      (callImplicitComposite R cs' s' state' dt).2 := by
  rintro ⟨t, d⟩ ho
  have hst := h.same.proper h.left
  have hst' := h.same.symm.proper h.right
  unfold callImplicitComposite at ho ⊢
  have hi' : ∀ c ∈ cs', c.Independent R := fun c hc => hi c (hp.mem_iff.2 hc)
  obtain ⟨rs, h1, -, hdiag⟩ := compositeLoop_ok (s' := (compositeLoop R (cs.map fun c => implicitCall c state dt) s [] []).1) (Prod.ext rfl ho)
  have hret := returned_runAll (by rw [h1])
  -- the components succeed on the other state
  obtain ⟨rs', h1'⟩ := runAll_isOk (cs := cs') (s := s') (state := state') (dt := dt) fun c hc w => by
    obtain ⟨r, hr, w0, hr0⟩ := forall₂_mem_left hret (hp.mem_iff.2 hc)
    obtain ⟨r', hr', -⟩ := ((hi' c hc).same w0 w state state' dt h).sim r hr0
    exact ⟨r', hr'⟩
  have hret' := returned_runAll h1'
  -- the results of one, in the order of the other
  obtain ⟨rs2, hret2, hperm⟩ := List.perm_comp_forall₂ hp.symm hret
  have hrel : List.Forall₂ (fun r r' => SameNamedDict r.1 r'.1 ∧ SameNamedDict r.2 r'.2) rs2 rs' := by
    clear h1 h1' hdiag hret hperm hd hi ho hp
    revert rs'
    induction hret2 with
    | nil => intro rs' hret'; cases hret'; exact .nil
    | @cons c r l l' hcr _ ih =>
      intro rs' hret'
      cases hret' with
      | cons hcr' hrest =>
        rename_i r' m
        refine .cons ?_ (ih (fun c hc => hi' c (List.mem_cons_of_mem _ hc)) m hrest)
        obtain ⟨w, hw⟩ := hcr
        obtain ⟨w', hw'⟩ := hcr'
        obtain ⟨x, hx, hrx⟩ := ((hi' c List.mem_cons_self).same w w' state state' dt h).sim r hw
        rw [hw'] at hx
        cases hx
        exact hrx
  -- what the two orders contribute to each quantity
  have hwf : WellFormedReturns (cs.map fun c => implicitCall c state dt) s := by
    intro os hos r hr
    obtain ⟨c, hc, w, hw⟩ := forall₂_mem_right (returned_runAll hos) hr
    obtain ⟨e1, -, e3⟩ := (hi c hc).returns w state dt r hst hw
    exact ⟨e1, fun n a ha => (e3 n a ha).1.wf⟩
  have hwf' : WellFormedReturns (cs'.map fun c => implicitCall c state' dt) s' := by
    intro os hos r hr
    obtain ⟨c, hc, w, hw⟩ := forall₂_mem_right (returned_runAll hos) hr
    obtain ⟨e1, -, e3⟩ := (hi' c hc).returns w state' dt r hst' hw
    exact ⟨e1, fun n a ha => (e3 n a ha).1.wf⟩
  have hcp : ∀ n, (contribs n (rs2.map (·.1))).Perm (contribs n (rs.map (·.1))) := fun n =>
    (hperm.map _).filterMap _
  have hcr : ∀ n, List.Forall₂ SameByName (contribs n (rs2.map (·.1))) (contribs n (rs'.map (·.1))) := fun n =>
    contribs_rel (hrel.imp fun _ _ h => h.1) n
  have hadd := (composite_succeeds_iff R hR _ s _ rs hwf h1).1 ⟨_, ho⟩
  have h1'' : runAll (cs'.map fun c => implicitCall c state' dt) s' =
      ((runAll (cs'.map fun c => implicitCall c state' dt) s').1, .ok rs') := Prod.ext rfl h1'
  obtain ⟨⟨t', d'⟩, ho'⟩ := (composite_succeeds_iff R hR _ s' _ rs' hwf' h1'').2 fun n =>
    ((hadd n).perm (hcp n).symm).rel (hcr n)
  refine ⟨(t', d'), ho', fun n => ?_, ?_⟩
  · obtain ⟨_, g1, g2⟩ := composite_tendencies_sum R hR _ s _ t d hwf (Prod.ext rfl ho)
    rw [h1] at g1
    cases g1
    obtain ⟨_, g1', g2'⟩ := composite_tendencies_sum R hR _ s' _ t' d' hwf' (Prod.ext rfl ho')
    obtain rfl : rs' = _ := Except.ok.inj ((show _ = _ from h1').symm.trans (by rw [g1']))
    obtain ⟨k1, k2⟩ := g2 n
    obtain ⟨k1', k2'⟩ := g2' n
    have hmul : ∀ c ∈ contribs n (rs.map (·.1)), Multiplicative R c := by
      intro c hc
      obtain ⟨dd, hdd, hc⟩ := mem_contribs.1 hc
      obtain ⟨r, hr, rfl⟩ := List.mem_map.1 hdd
      obtain ⟨cc, hcc, w, hw⟩ := forall₂_mem_right hret hr
      exact (((hi cc hcc).returns w state dt r hst hw).2.2 n c hc).2
    have hmul' : ∀ c ∈ contribs n (rs'.map (·.1)), Multiplicative R c := by
      intro c hc
      obtain ⟨dd, hdd, hc⟩ := mem_contribs.1 hc
      obtain ⟨r, hr, rfl⟩ := List.mem_map.1 hdd
      obtain ⟨cc, hcc, w, hw⟩ := forall₂_mem_right hret' hr
      exact (((hi' cc hcc).returns w state' dt r hst' hw).2.2 n c hc).2
    have hmem : n ∈ t.keys ↔ n ∈ t'.keys := by
      rw [k1, k1']
      constructor
      · rintro ⟨r, hr, hk⟩
        obtain ⟨r', hr', hrr, -⟩ := forall₂_mem_left hrel (hperm.mem_iff.2 hr)
        exact ⟨r', hr', ((sameNamedDict_each hrr).mem n).1 hk⟩
      · rintro ⟨r', hr', hk⟩
        obtain ⟨r, hr, hrr, -⟩ := forall₂_mem_right hrel hr'
        exact ⟨r, hperm.mem_iff.1 hr, ((sameNamedDict_each hrr).mem n).2 hk⟩
    cases hq : t.get? n with
    | none =>
      rw [(Dict.get?_eq_none_iff t' n).2 fun hm => (Dict.get?_eq_none_iff t n).1 hq (hmem.2 hm)]
      exact .none
    | some q =>
      obtain ⟨q', hq'⟩ := Dict.get?_of_mem_keys (hmem.1 (Dict.mem_keys_of_get? hq))
      rw [hq']
      obtain ⟨w1, ⟨c0, rest, w2, w3⟩, w4, w5, w6⟩ := k2 q hq
      obtain ⟨w1', ⟨c0', rest', w2', w3'⟩, w4', w5', w6'⟩ := k2' q' hq'
      have hdims : ∀ x, x ∈ q.dims ↔ x ∈ q'.dims := by
        intro x
        rw [w4, w4']
        constructor
        · rintro ⟨c, hc, hx⟩
          obtain ⟨c', hc', hcc⟩ := forall₂_mem_left (hcr n) ((hcp n).mem_iff.2 hc)
          exact ⟨c', hc', hcc.dims.mem_iff.1 hx⟩
        · rintro ⟨c', hc', hx⟩
          obtain ⟨c, hc, hcc⟩ := forall₂_mem_right (hcr n) hc'
          exact ⟨c, (hcp n).mem_iff.1 hc, hcc.dims.mem_iff.2 hx⟩
      have hphys : ∀ ix : String → Nat, (∀ d ∈ q.dims, ix d < q.len d) → physAt R ix q = physAt R ix q' := by
        intro ix hix
        rw [w6 hmul ix, w6' hmul' ix, ← ((hcp n).map (physAt R ix)).sum_eq]
        have hb : ∀ c ∈ contribs n (rs2.map (·.1)), ∀ d ∈ c.dims, ix d < c.len d := by
          intro c hc d hd
          have hc := (hcp n).mem_iff.1 hc
          rw [← w5 c hc d hd]
          exact hix d ((w4 d).2 ⟨c, hc, hd⟩)
        have gen : ∀ {l l' : List DataArray}, List.Forall₂ SameByName l l' → (∀ c ∈ l, ∀ d ∈ c.dims, ix d < c.len d) →
            l.map (physAt R ix) = l'.map (physAt R ix) := by
          intro l l' hl
          induction hl with
          | nil => intro _; rfl
          | cons hab _ ih =>
            intro hb
            rw [List.map_cons, List.map_cons, physAt_rel hab (hb _ List.mem_cons_self),
              ih fun c hc => hb c (List.mem_cons_of_mem _ hc)]
        rw [gen (hcr n) hb]
      have hfine : q.Fine := ⟨w1, fun hm => by
        obtain ⟨c, hc, hx⟩ := (w4 _).1 hm
        obtain ⟨dd, hdd, hc⟩ := mem_contribs.1 hc
        obtain ⟨r, hr, rfl⟩ := List.mem_map.1 hdd
        obtain ⟨cc, hcc, w, hw⟩ := forall₂_mem_right hret hr
        exact (((hi cc hcc).returns w state dt r hst hw).2.2 n c hc).1.star hx⟩
      refine .some ⟨hfine, ⟨w1', fun hm => hfine.star ((hdims _).2 hm)⟩, (List.perm_ext_iff_of_nodup w1.2 w1'.2).2 hdims, fun x hx => ?_, ?_⟩
      · obtain ⟨c, hc, hxc⟩ := (w4 x).1 hx
        obtain ⟨c', hc', hcc⟩ := forall₂_mem_left (hcr n) ((hcp n).mem_iff.2 hc)
        rw [w5 c hc x hxc, w5' c' hc' x (hcc.dims.mem_iff.1 hxc), hcc.len x hxc]
      · rcases hadd n with hl | ⟨⟨dim, hdim⟩, -⟩
        · -- only one component contributes
          have hr0 : rest = [] := by
            rw [w2, List.length_cons] at hl
            exact List.eq_nil_of_length_eq_zero (by omega)
          subst hr0
          have hone := hcr n
          have hp1 := hcp n
          rw [w2] at hp1
          rw [List.perm_singleton.1 hp1, w2'] at hone
          cases hone with
          | cons h0 _ =>
            have hat : q.attrs = q'.attrs := by rw [w3, w3', h0.attrs]
            refine .inl ⟨by rw [hat], fun ix hix => ?_⟩
            have := hphys ix hix
            unfold physAt at this
            rw [hat] at this
            cases hu : (q'.attrs.get? "units").bind R.parse with
            | none => rw [hu] at this; exact this
            | some u =>
              rw [hu] at this
              exact mul_right_cancel₀ (ne_of_gt u.scale_pos) (add_right_cancel this)
        · obtain ⟨own, u, e1, e2, e3⟩ := hdim c0 (by rw [w2]; exact List.mem_cons_self)
          obtain ⟨c, hc, hcc⟩ := forall₂_mem_right (hcr n) (show c0' ∈ _ by rw [w2']; exact List.mem_cons_self)
          obtain ⟨own', u', e1', e2', e3'⟩ := hdim c ((hcp n).mem_iff.1 hc)
          rw [hcc.attrs, ← w3'] at e1'
          rw [← w3] at e1
          refine .inr ⟨own, own', u, u', e1, e1', e2, e2', e3.trans e3'.symm, fun ix hix => ?_⟩
          have := hphys ix hix
          unfold physAt at this
          rw [e1, e1'] at this
          change (match R.parse own with | some u => q.at' ix * u.scale + u.offset | none => q.at' ix) =
            (match R.parse own' with | some u => q'.at' ix * u.scale + u.offset | none => q'.at' ix) at this
          rw [e2, e2'] at this
          exact this
  · -- diagnostics
    obtain ⟨rs3, f1, -, hdiag'⟩ := compositeLoop_ok
      (s' := (compositeLoop R (cs'.map fun c => implicitCall c state' dt) s' [] []).1) (Prod.ext rfl ho')
    obtain rfl : rs' = rs3 := Except.ok.inj (h1'.symm.trans (by rw [f1]))
    have hn : ∀ r ∈ rs, (Dict.keys r.2).Nodup := by
      intro r hr
      obtain ⟨c, hc, w, hw⟩ := forall₂_mem_right hret hr
      exact ((hi c hc).returns w state dt r hst hw).2.1
    have hn' : ∀ r ∈ rs', (Dict.keys r.2).Nodup := by
      intro r hr
      obtain ⟨c, hc, w, hw⟩ := forall₂_mem_right hret' hr
      exact ((hi' c hc).returns w state' dt r hst' hw).2.1
    refine each_sameNamedDict fun n => ?_
    obtain ⟨a1, a2⟩ := foldl_update_get (n := n) (d0 := []) hn (pairwise_returned hst hret hd)
    obtain ⟨b1, b2⟩ := foldl_update_get (n := n) (d0 := []) hn' (pairwise_returned hst' hret' (diagnosticsApart_perm hp hd))
    rw [hdiag, hdiag']
    by_cases hex : ∃ r ∈ rs, ∃ a, Dict.get? r.2 n = some a
    · obtain ⟨r, hr, a, ha⟩ := hex
      obtain ⟨r', hr', -, hrr⟩ := forall₂_mem_left hrel (hperm.mem_iff.2 hr)
      obtain ⟨a', ha', haa⟩ := (sameNamedDict_each hrr).some ha
      rw [a1 r hr a ha, b1 r' hr' a' ha']
      exact .some haa
    · have hno : ∀ r ∈ rs, Dict.get? r.2 n = none := by
        intro r hr
        cases ha : Dict.get? r.2 n with
        | none => rfl
        | some a => exact absurd ⟨r, hr, a, ha⟩ hex
      rw [a2 hno, b2]
      · exact .none
      · intro r' hr'
        obtain ⟨r, hr, -, hrr⟩ := forall₂_mem_right hrel hr'
        exact (sameNamedDict_each hrr).none (hno r (hperm.mem_iff.1 hr))

/-- **C100, components.**  Given in another order, components whose results depend on the
quantities in the state only, and which do not share diagnostics, give the same tendencies
and the same diagnostics, or raise in both orders. -/
theorem components_in_any_order (hR : R.Faithful) {cs cs' : List (Comp σ)} (hp : cs.Perm cs')
    (hi : ∀ c ∈ cs, c.Independent R) (hd : cs.Pairwise DiagnosticsApart) :
    SameComponents R (callImplicitComposite R cs) (callImplicitComposite R cs') := by
  intro s s' state state' dt h
  have h1 := composite_order_sim hR hp hi hd s s' dt h
  have h2 := composite_order_sim hR hp.symm (fun c hc => hi c (hp.mem_iff.2 hc)) (diagnosticsApart_perm hp hd) s' s dt h.symm
  revert h1 h2
  generalize (callImplicitComposite R cs s state dt).2 = x
  generalize (callImplicitComposite R cs' s' state' dt).2 = y
  intro h1 h2
  cases x with
  | ok r =>
    obtain ⟨r', hr', hrr⟩ := h1 r rfl
    subst hr'
    exact hrr
  | error e =>
    cases y with
    | error e' => trivial
    | ok r' =>
      obtain ⟨r, hr, -⟩ := h2 r' rfl
      cases hr

/-! ## Runs -/

theorem sameEnds_of_sim {τ τ' σ σ' : Type} {a : Option (τ × σ × State)} {b : Option (τ' × σ' × State)}
    (h1 : ∀ r, a = some r → ∃ r', b = some r' ∧ SameStates r.2.2 r'.2.2)
    (h2 : ∀ r, b = some r → ∃ r', a = some r' ∧ SameStates r.2.2 r'.2.2) : SameEnds a b := by
  cases a with
  | none =>
    cases b with
    | none => trivial
    | some r => obtain ⟨r', e, -⟩ := h2 r rfl; cases e
  | some r =>
    obtain ⟨r', e, h⟩ := h1 r rfl
    subst e
    exact h.same.named

theorem AlikeAB.new (ab : AB) (h : ab.hist = []) : AlikeAB ab ab := ⟨rfl, rfl, by rw [h]; exact .nil⟩

section
variable {σ' : Type} {p : Prog σ} {p' : Prog σ'} (hR : R.Faithful) (hp : SameComponents R p p') (hd : p.Dicts)
  (hd' : p'.Dicts) (dt : Int) (inP outP inP' outP' : PropDict) (inst inst' : String) (n : Nat) (w : σ) (w' : σ')
  {s s' : State} (h : SameStates s s')
include hR hp hd hd' h

/-- Runs of an AdamsBashforth with components that do the same. -/
theorem ab_same_runs {order : Int} {ab : AB} (hab : AB.make order = .ok ab) :
    SameEnds (runSteps (tsCall R inP outP inst false (abCall R p)) dt n ab w s)
      (runSteps (tsCall R inP' outP' inst' false (abCall R p')) dt n ab w' s') := by
  have hnew : ab.hist = [] := by
    unfold AB.make at hab
    by_cases ho : 1 ≤ order ∧ order ≤ 4
    · rw [if_pos ho] at hab; cases hab; rfl
    · rw [if_neg ho] at hab; cases hab
  exact sameEnds_of_sim
    (runSteps_sim (M := AlikeAB) (fun x x' w w' s s' hM hs => tsCall_sim (ab_sim hR hp hd hd' hM w w' hs dt)) n ab ab w w' s s'
      (.new ab hnew) h)
    (runSteps_sim (M := AlikeAB) (fun x x' w w' s s' hM hs => tsCall_sim (ab_sim hR hp.symm hd' hd hM w w' hs dt)) n ab ab w' w
      s' s (.new ab hnew) h.symm)

/-- Runs of an SSPRungeKutta. -/
theorem ssprk_same_runs (three : Bool) {ab : AB} (hab : AB.make 1 = .ok ab) :
    SameEnds (runSteps (tsCall R inP outP inst false (sspCall R p three)) dt n ab w s)
      (runSteps (tsCall R inP' outP' inst' false (sspCall R p' three)) dt n ab w' s') := by
  have hnew : ab.hist = [] := by
    unfold AB.make at hab
    rw [if_pos (by decide)] at hab; cases hab; rfl
  exact sameEnds_of_sim
    (runSteps_sim (M := AlikeAB) (fun x x' w w' s s' hM hs => tsCall_sim (ssprk_sim hR hp hd hd' three hM w w' hs dt)) n ab ab
      w w' s s' (.new ab hnew) h)
    (runSteps_sim (M := AlikeAB) (fun x x' w w' s s' hM hs => tsCall_sim (ssprk_sim hR hp.symm hd' hd three hM w w' hs dt)) n
      ab ab w' w s' s (.new ab hnew) h.symm)

/-- Runs of a Leapfrog. -/
theorem lf_same_runs (strength alpha : Rat) :
    SameEnds (runSteps (tsCall R inP outP inst false (LF.call R p)) dt n { strength, alpha } w s)
      (runSteps (tsCall R inP' outP' inst' false (LF.call R p')) dt n { strength, alpha } w' s') := by
  have hM : AlikeLF { strength, alpha } { strength, alpha } := ⟨rfl, rfl, rfl, .none⟩
  exact sameEnds_of_sim
    (runSteps_sim (M := AlikeLF) (fun x x' w w' s s' hM hs => tsCall_sim (lf_sim hR hp hd hd' hM w w' hs dt)) n _ _
      w w' s s' hM h)
    (runSteps_sim (M := AlikeLF) (fun x x' w w' s s' hM hs => tsCall_sim (lf_sim hR hp.symm hd' hd hM w w' hs dt)) n
      _ _ w' w s' s hM h.symm)

end

section
variable (hR : R.Faithful) {cs cs' : List (Comp σ)} (hp : cs.Perm cs') (hi : ∀ c ∈ cs, c.Independent R)
  (hd : cs.Pairwise DiagnosticsApart) {state : State} (hs : ProperState state) (dt : Int)
  (inP outP inP' outP' : PropDict) (inst inst' : String) (n : Nat) (w w' : σ)

theorem SameStates.refl {state : State} (hs : ProperState state) : SameStates state state :=
  ⟨hs.keys, hs.keys, fun k => by
    cases hg : Dict.get? state k with
    | none => trivial
    | some v =>
      cases v with
      | time t => rfl
      | da a =>
        exact ⟨fun e => hs.time a (e ▸ hg), ⟨hs.wf k a hg, hs.star k a hg⟩, ⟨hs.wf k a hg, hs.star k a hg⟩, .refl _,
          fun _ _ => rfl, rfl, fun _ _ => rfl⟩⟩

include hR hp hi hd hs

/-- **C100, AdamsBashforth.**  For every order of the scheme, timestep and number of steps:
with the components given in another order, a run completes if it does in the one, and
holds the same quantities with the same values. -/
theorem ab_components_in_any_order {order : Int} {ab : AB} (hab : AB.make order = .ok ab) :
    SameEnds (runSteps (tsCall R inP outP inst false (abCall R (callImplicitComposite R cs))) dt n ab w state)
      (runSteps (tsCall R inP' outP' inst' false (abCall R (callImplicitComposite R cs'))) dt n ab w' state) :=
  ab_same_runs hR (components_in_any_order hR hp hi hd) (composite_prog_dicts R cs) (composite_prog_dicts R cs') dt inP outP
    inP' outP' inst inst' n w w' (.refl hs) hab

/-- **C100, SSPRungeKutta** (two or three stages). -/
theorem ssprk_components_in_any_order (three : Bool) {ab : AB} (hab : AB.make 1 = .ok ab) :
    SameEnds (runSteps (tsCall R inP outP inst false (sspCall R (callImplicitComposite R cs) three)) dt n ab w state)
      (runSteps (tsCall R inP' outP' inst' false (sspCall R (callImplicitComposite R cs') three)) dt n ab w' state) :=
  ssprk_same_runs hR (components_in_any_order hR hp hi hd) (composite_prog_dicts R cs) (composite_prog_dicts R cs') dt inP outP
    inP' outP' inst inst' n w w' (.refl hs) three hab

/-- **C100, Leapfrog**, with any filter. -/
theorem lf_components_in_any_order (strength alpha : Rat) :
    SameEnds (runSteps (tsCall R inP outP inst false (LF.call R (callImplicitComposite R cs))) dt n { strength, alpha } w state)
      (runSteps (tsCall R inP' outP' inst' false (LF.call R (callImplicitComposite R cs'))) dt n { strength, alpha } w'
        state) :=
  lf_same_runs hR (components_in_any_order hR hp hi hd) (composite_prog_dicts R cs) (composite_prog_dicts R cs') dt inP outP
    inP' outP' inst inst' n w w' (.refl hs) strength alpha

end

end

end Verif
