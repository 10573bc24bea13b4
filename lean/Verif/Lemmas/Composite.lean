import Verif.Spec.Composite
import Verif.Lemmas.DataArray
import Verif.Lemmas.Wildcard
import Verif.Props.Units
/-! # Lemmas about adding up dictionaries of quantities -/

namespace Verif

/-- `update_dict_by_adding_another` seen from one quantity. -/
def addOne (R : Registry) (acc : Option DataArray) (v : DataArray) : Except Err DataArray :=
  match acc with
  | none => .ok v
  | some w =>
    match w.attrs.get? "units", v.attrs.get? "units" with
    | some u, some _ => v.toUnits R u >>= fun v' => w.add v'
    | _, _ => .error .invalidState

def sumFrom (R : Registry) : Option DataArray → List DataArray → Except Err (Option DataArray)
  | acc, [] => .ok acc
  | acc, v :: vs => addOne R acc v >>= fun a => sumFrom R (some a) vs

def sumAll (R : Registry) : List (Dict DataArray) → Dict DataArray → Except Err (Dict DataArray)
  | [], t => .ok t
  | d :: ds, t => addInto R d t >>= sumAll R ds

theorem addInto_cons (R : Registry) (k : String) (v : DataArray) (ts t : Dict DataArray) :
    addInto R ((k, v) :: ts) t = (addOne R (t.get? k) v >>= fun w => addInto R ts (t.set k w)) := by
  conv_lhs => unfold addInto
  unfold addOne
  cases ht : t.get? k with
  | none => rfl
  | some w =>
    dsimp only
    cases hu : w.attrs.get? "units" with
    | none => rfl
    | some u =>
      cases hv : v.attrs.get? "units" with
      | none => rfl
      | some o =>
        dsimp only
        cases v.toUnits R u with
        | error e => rfl
        | ok v' => rfl

theorem addInto_get? {R : Registry} {ts t t' : Dict DataArray} (hn : ts.keys.Nodup)
    (h : addInto R ts t = .ok t') (n : String) :
    (ts.get? n = none ∧ t'.get? n = t.get? n) ∨
    ∃ v w, ts.get? n = some v ∧ addOne R (t.get? n) v = .ok w ∧ t'.get? n = some w := by
  induction ts generalizing t with
  | nil => cases h; exact Or.inl ⟨rfl, rfl⟩
  | cons kv ts ih =>
    obtain ⟨k, v⟩ := kv
    rw [addInto_cons] at h
    obtain ⟨w, hw, h⟩ := Exc.bind_ok_iff.1 h
    rw [Dict.keys_cons, List.nodup_cons] at hn
    rw [Dict.get?_cons]
    by_cases hk : k = n
    · subst hk
      right
      rcases ih hn.2 h with ⟨_, h2⟩ | ⟨v', _, h2, _⟩
      · exact ⟨v, w, by simp, hw, by rw [h2, Dict.get?_set_self]⟩
      · exact absurd (Dict.mem_keys_of_get? h2) hn.1
    · simp only [hk, if_false]
      have := ih hn.2 h
      rwa [Dict.get?_set_ne _ _ hk] at this

theorem addInto_isOk {R : Registry} {ts t : Dict DataArray} (hn : ts.keys.Nodup)
    (h : ∀ n v, ts.get? n = some v → ∃ w, addOne R (t.get? n) v = .ok w) :
    ∃ t', addInto R ts t = .ok t' := by
  induction ts generalizing t with
  | nil => exact ⟨t, rfl⟩
  | cons kv ts ih =>
    obtain ⟨k, v⟩ := kv
    rw [Dict.keys_cons, List.nodup_cons] at hn
    obtain ⟨w, hw⟩ := h k v (by simp [Dict.get?_cons])
    rw [addInto_cons, hw]
    apply ih hn.2
    intro n v' hv'
    have hne : k ≠ n := fun e => hn.1 (e ▸ Dict.mem_keys_of_get? hv')
    rw [Dict.get?_set_ne _ _ hne]
    exact h n v' (by rw [Dict.get?_cons]; simp [hne, hv'])

theorem contribs_cons_none {n : String} {d : Dict DataArray} (ts : List (Dict DataArray)) (h : d.get? n = none) :
    contribs n (d :: ts) = contribs n ts := by
  simp [contribs, h]

theorem contribs_cons_some {n : String} {d : Dict DataArray} {v : DataArray} (ts : List (Dict DataArray))
    (h : d.get? n = some v) : contribs n (d :: ts) = v :: contribs n ts := by
  simp [contribs, h]

theorem sumAll_get? {R : Registry} {ts : List (Dict DataArray)} {t t' : Dict DataArray}
    (hn : ∀ d ∈ ts, (Dict.keys d).Nodup) (h : sumAll R ts t = .ok t') (n : String) :
    sumFrom R (t.get? n) (contribs n ts) = .ok (t'.get? n) := by
  induction ts generalizing t with
  | nil => cases h; rfl
  | cons d ts ih =>
    unfold sumAll at h
    obtain ⟨m, hm, h⟩ := Exc.bind_ok_iff.1 h
    have := ih (fun d hd => hn d (List.mem_cons_of_mem _ hd)) h
    rcases addInto_get? (hn d (by simp)) hm n with ⟨h1, h2⟩ | ⟨v, w, h1, h2, h3⟩
    · rw [contribs_cons_none _ h1, ← h2]
      exact this
    · rw [contribs_cons_some _ h1]
      unfold sumFrom
      rw [h2, Exc.ok_bind, ← h3]
      exact this

theorem sumAll_isOk {R : Registry} {ts : List (Dict DataArray)} {t : Dict DataArray}
    (hn : ∀ d ∈ ts, (Dict.keys d).Nodup)
    (h : ∀ n, ∃ r, sumFrom R (t.get? n) (contribs n ts) = .ok r) : ∃ t', sumAll R ts t = .ok t' := by
  induction ts generalizing t with
  | nil => exact ⟨t, rfl⟩
  | cons d ts ih =>
    have hstep : ∀ n v, Dict.get? d n = some v → ∃ w, addOne R (t.get? n) v = .ok w ∧
        ∃ r, sumFrom R (some w) (contribs n ts) = .ok r := by
      intro n v hv
      obtain ⟨r, hr⟩ := h n
      rw [contribs_cons_some _ hv] at hr
      unfold sumFrom at hr
      obtain ⟨w, hw, hr⟩ := Exc.bind_ok_iff.1 hr
      exact ⟨w, hw, r, hr⟩
    obtain ⟨m, hm⟩ := addInto_isOk (hn d (by simp)) (fun n v hv =>
      let ⟨w, hw, _⟩ := hstep n v hv; ⟨w, hw⟩)
    unfold sumAll
    rw [hm]
    apply ih (fun d hd => hn d (List.mem_cons_of_mem _ hd))
    intro n
    rcases addInto_get? (hn d (by simp)) hm n with ⟨h1, h2⟩ | ⟨v, w, h1, h2, h3⟩
    · obtain ⟨r, hr⟩ := h n
      rw [contribs_cons_none _ h1, ← h2] at hr
      exact ⟨r, hr⟩
    · obtain ⟨w', hw', r, hr⟩ := hstep n v h1
      rw [hw'] at h2; cases h2
      rw [h3]
      exact ⟨r, hr⟩

theorem toUnits_at {R : Registry} (hR : R.Faithful) {v q : DataArray} {units : String}
    (h : v.toUnits R units = .ok q) (ix : String → Nat) :
    ∃ own a b, v.attrs.get? "units" = some own ∧ R.parse own = some a ∧ R.parse units = some b ∧
      a.dim = b.dim ∧ q.at' ix * b.scale + b.offset = v.at' ix * a.scale + a.offset := by
  obtain ⟨own, h1, h2, h3, h4, _⟩ := toUnits_ok hR h
  obtain ⟨b, a, hb, ha, hd, he⟩ := h4 (v.dims.map ix)
  refine ⟨own, a, b, h1, ha, hb, hd.symm, ?_⟩
  unfold DataArray.at'
  rw [h2]
  exact he

theorem sumFrom_some {R : Registry} (hR : R.Faithful) {w : DataArray} {cs : List DataArray}
    {r : Option DataArray} (hw : w.WF) (hcs : ∀ c ∈ cs, c.WF) (h : sumFrom R (some w) cs = .ok r) :
    ∃ q, r = some q ∧ q.WF ∧ q.attrs = w.attrs ∧
      (∀ d, d ∈ q.dims ↔ d ∈ w.dims ∨ ∃ c ∈ cs, d ∈ c.dims) ∧
      (∀ d ∈ w.dims, q.len d = w.len d) ∧ (∀ c ∈ cs, ∀ d ∈ c.dims, q.len d = c.len d) ∧
      (cs ≠ [] → ∃ dim, HasDim R dim w ∧ ∀ c ∈ cs, HasDim R dim c) ∧
      (Multiplicative R w → (∀ c ∈ cs, Multiplicative R c) →
        ∀ ix, physAt R ix q = physAt R ix w + (cs.map (physAt R ix)).sum) := by
  induction cs generalizing w with
  | nil =>
    cases h
    refine ⟨w, rfl, hw, rfl, by simp, fun _ _ => rfl, by simp, by simp, ?_⟩
    intro _ _ ix; simp
  | cons v cs ih =>
    unfold sumFrom at h
    obtain ⟨w', hw', h⟩ := Exc.bind_ok_iff.1 h
    unfold addOne at hw'
    dsimp only at hw'
    split at hw'
    · rename_i u o hu ho
      obtain ⟨v', hv', hw'⟩ := Exc.bind_ok_iff.1 hw'
      obtain ⟨own, t1, t2, t3, _, a, b, ta, tb, _⟩ := toUnits_ok hR hv'
      rw [ho] at t1; cases t1
      have hvwf := hcs v (by simp)
      have hv'wf : v'.WF := by unfold DataArray.WF; rw [t2, t3]; exact hvwf
      have hlen : ∀ d, v'.len d = v.len d := by intro d; unfold DataArray.len; rw [t2, t3]
      obtain ⟨a1, a2⟩ := add_by_name w v' hw hv'wf
      by_cases hs : SameLengths w v'
      · obtain ⟨s, s1, s2, s3, s4, _, s5, s6, s7⟩ := a1 hs
        rw [s1] at hw'; injection hw' with hw'; subst hw'
        obtain ⟨q, q0, q1, q2, q3, q4, q5, q6, q7⟩ :=
          ih s2 (fun c hc => hcs c (List.mem_cons_of_mem _ hc)) h
        have hdim : ∃ dim, HasDim R dim w ∧ HasDim R dim v := by
          obtain ⟨own', x, y, x1, x2, x3, x4, _⟩ := toUnits_at hR hv' (fun _ => 0)
          exact ⟨y.dim, ⟨u, y, hu, x3, rfl⟩, ⟨own', x, x1, x2, x4⟩⟩
        refine ⟨q, q0, q1, q2.trans s3, ?_, ?_, ?_, ?_, ?_⟩
        · intro d
          rw [q3, s4, t2]
          simp only [List.mem_cons, exists_eq_or_imp]
          exact or_assoc
        · intro d hd
          rw [q4 d ((s4 d).2 (Or.inl hd)), s5 d hd]
        · intro c hc d hd
          rcases List.mem_cons.1 hc with rfl | hc
          · have hd' : d ∈ v'.dims := by rw [t2]; exact hd
            rw [q4 d ((s4 d).2 (Or.inr hd')), s6 d hd', hlen]
          · exact q5 c hc d hd
        · intro _
          obtain ⟨dim, d1, d2⟩ := hdim
          refine ⟨dim, d1, ?_⟩
          intro c hc
          rcases List.mem_cons.1 hc with rfl | hc
          · exact d2
          · obtain ⟨dim', e1, e2⟩ := q6 (List.ne_nil_of_mem hc)
            obtain ⟨o1, u1, f1, f2, f3⟩ := d1
            obtain ⟨o2, u2, g1, g2, g3⟩ := e1
            rw [s3, f1] at g1; cases g1
            rw [f2] at g2; cases g2
            rw [← f3, g3]; exact e2 c hc
        · intro mw mc ix
          have ms : Multiplicative R s := by
            intro o u h1 h2; rw [s3] at h1; exact mw o u h1 h2
          rw [q7 ms (fun c hc => mc c (List.mem_cons_of_mem _ hc)) ix]
          obtain ⟨own', x, y, x1, x2, x3, x4, x5⟩ := toUnits_at hR hv' ix
          have hx0 := mc v (by simp) own' x x1 x2
          have hy0 := mw u y hu x3
          have e1 : physAt R ix s = s.at' ix * y.scale + y.offset := by
            unfold physAt; rw [s3, hu]; simp [x3]
          have e2 : physAt R ix w = w.at' ix * y.scale + y.offset := by
            unfold physAt; rw [hu]; simp [x3]
          have e3 : physAt R ix v = v.at' ix * x.scale + x.offset := by
            unfold physAt; rw [x1]; simp [x2]
          rw [List.map_cons, List.sum_cons, e1, e2, e3, s7 ix]
          rw [hx0, hy0] at x5 ⊢
          linarith
      · rw [a2 hs] at hw'; cases hw'
    · cases hw'

theorem sumFrom_isOk {R : Registry} (hR : R.Faithful) {w : DataArray} {cs : List DataArray} {dim : List Int}
    (hw : w.WF) (hcs : ∀ c ∈ cs, c.WF) (hd : cs ≠ [] → HasDim R dim w) (hdc : ∀ c ∈ cs, HasDim R dim c)
    (hl : (w :: cs).Pairwise SameLengths) : ∃ r, sumFrom R (some w) cs = .ok r := by
  induction cs generalizing w with
  | nil => exact ⟨_, rfl⟩
  | cons v cs ih =>
    obtain ⟨u, b, hu, hb, hbd⟩ := hd (by simp)
    obtain ⟨own, a, ho, ha, had⟩ := hdc v (by simp)
    obtain ⟨v', hv'⟩ := toUnits_isOk ho ha hb (had.trans hbd.symm)
    obtain ⟨_, t1, t2, t3, _⟩ := toUnits_ok hR hv'
    have hvwf := hcs v (by simp)
    have hv'wf : v'.WF := by unfold DataArray.WF; rw [t2, t3]; exact hvwf
    have hlen : ∀ d, v'.len d = v.len d := by intro d; unfold DataArray.len; rw [t2, t3]
    rw [List.pairwise_cons] at hl
    obtain ⟨l1, l2⟩ := hl
    rw [List.pairwise_cons] at l2
    have hs : SameLengths w v' := by
      intro d h1 h2
      rw [hlen]; rw [t2] at h2
      exact l1 v (by simp) d h1 h2
    obtain ⟨s, s1, s2, s3, s4, _, s5, s6, s7⟩ := (add_by_name w v' hw hv'wf).1 hs
    have hone : addOne R (some w) v = .ok s := by
      unfold addOne
      simp only [hu, ho, hv', Exc.ok_bind, s1]
    unfold sumFrom
    rw [hone]
    apply ih s2 (fun c hc => hcs c (List.mem_cons_of_mem _ hc))
    · intro _
      exact ⟨u, b, by rw [s3]; exact hu, hb, hbd⟩
    · exact fun c hc => hdc c (List.mem_cons_of_mem _ hc)
    · rw [List.pairwise_cons]
      refine ⟨?_, l2.2⟩
      intro c hc d h1 h2
      rcases (s4 d).1 h1 with h1 | h1
      · rw [s5 d h1]; exact l1 c (List.mem_cons_of_mem _ hc) d h1 h2
      · rw [s6 d h1, hlen]; rw [t2] at h1; exact l2.1 c hc d h1 h2

/-- Sum of the contributions to one quantity. -/
theorem sumFrom_none {R : Registry} (hR : R.Faithful) {cs : List DataArray} (hcs : ∀ c ∈ cs, c.WF) :
    ((∃ r, sumFrom R none cs = .ok r) ↔ Addable R cs) ∧
    (∀ r, sumFrom R none cs = .ok r → (cs = [] ∧ r = none) ∨ ∃ c0 rest q, cs = c0 :: rest ∧ r = some q ∧
      q.WF ∧ q.attrs = c0.attrs ∧ (∀ d, d ∈ q.dims ↔ ∃ c ∈ cs, d ∈ c.dims) ∧
      (∀ c ∈ cs, ∀ d ∈ c.dims, q.len d = c.len d) ∧
      ((∀ c ∈ cs, Multiplicative R c) → ∀ ix, physAt R ix q = (cs.map (physAt R ix)).sum)) := by
  cases cs with
  | nil =>
    refine ⟨⟨fun _ => Or.inl (by simp), fun _ => ⟨_, rfl⟩⟩, ?_⟩
    intro r h; cases h; exact Or.inl ⟨rfl, rfl⟩
  | cons w cs =>
    have he : sumFrom R none (w :: cs) = sumFrom R (some w) cs := rfl
    rw [he]
    have hw := hcs w (by simp)
    have hcs' : ∀ c ∈ cs, c.WF := fun c hc => hcs c (List.mem_cons_of_mem _ hc)
    constructor
    · constructor
      · rintro ⟨r, hr⟩
        obtain ⟨q, _, _, _, q3, q4, q5, q6, _⟩ := sumFrom_some hR hw hcs' hr
        by_cases hne : cs = []
        · left; simp [hne]
        · right
          obtain ⟨dim, d1, d2⟩ := q6 hne
          refine ⟨⟨dim, ?_⟩, ?_⟩
          · intro c hc
            rcases List.mem_cons.1 hc with rfl | hc
            · exact d1
            · exact d2 c hc
          · -- all lengths agree with the result
            have hall : ∀ c ∈ w :: cs, ∀ d ∈ c.dims, q.len d = c.len d := by
              intro c hc d hd
              rcases List.mem_cons.1 hc with rfl | hc
              · exact q4 d hd
              · exact q5 c hc d hd
            rw [List.pairwise_iff_forall_sublist]
            intro a b hab d h1 h2
            rw [← hall a (hab.subset (by simp)) d h1, ← hall b (hab.subset (by simp)) d h2]
      · rintro (h | ⟨⟨dim, h1⟩, h2⟩)
        · have : cs = [] := by
            cases cs with
            | nil => rfl
            | cons a l => simp at h
          subst this
          exact ⟨_, rfl⟩
        · exact sumFrom_isOk hR hw hcs' (fun _ => h1 w (by simp))
            (fun c hc => h1 c (List.mem_cons_of_mem _ hc)) h2
    · intro r hr
      right
      obtain ⟨q, q0, q1, q2, q3, q4, q5, _, q7⟩ := sumFrom_some hR hw hcs' hr
      refine ⟨w, cs, q, rfl, q0, q1, q2, ?_, ?_, ?_⟩
      · intro d; rw [q3]; simp
      · intro c hc d hd
        rcases List.mem_cons.1 hc with rfl | hc
        · exact q4 d hd
        · exact q5 c hc d hd
      · intro hm ix
        rw [q7 (hm w (by simp)) (fun c hc => hm c (List.mem_cons_of_mem _ hc)) ix]
        simp

end Verif
