import Verif.Props.TendencyUnits
import Verif.Lemmas.Components
import Verif.Lemmas.Composite
/-! # TendencyStepper: property C40 (and C31 through `__call__`) -/

namespace Verif

variable {σ τ : Type}

/-- `d` is `(new - old) / dt` of the quantity `n` in units `base` per second. -/
def IsNetTendency (R : Registry) (inProps : PropDict) (old new : State) (dt : Int) (n : String) (d : DataArray) : Prop :=
  ∃ p base a b ua ub, inProps.get? n = some p ∧ p.units = some base ∧
    Dict.get? new n = some (.da a) ∧ Dict.get? old n = some (.da b) ∧
    a.attrs.get? "units" = some ua ∧ b.attrs.get? "units" = some ub ∧
    d.attrs = [("units", perSecond base)] ∧ (∀ x ∈ a.dims, x ∈ d.dims) ∧
    ∀ ix, ∃ va vb, SamePhysical R base va ua (a.at' ix) ∧ SamePhysical R base vb ub (b.at' ix) ∧
      d.at' ix = (va - vb) / seconds dt

theorem netTendency_ok {R : Registry} (hF : R.Faithful) {inProps : PropDict} {state new : State} {dt : Int}
    {n : String} {d : DataArray} (h : netTendency R inProps state new dt n = .ok d) :
    IsNetTendency R inProps state new dt n d := by
  unfold netTendency at h
  obtain ⟨p, hp, h⟩ := Exc.bind_ok_iff.1 h
  obtain ⟨base, hb, h⟩ := Exc.bind_ok_iff.1 h
  obtain ⟨a, ha, h⟩ := Exc.bind_ok_iff.1 h
  obtain ⟨a', ha', h⟩ := Exc.bind_ok_iff.1 h
  obtain ⟨b, hb', h⟩ := Exc.bind_ok_iff.1 h
  obtain ⟨b', hb'', h⟩ := Exc.bind_ok_iff.1 h
  obtain ⟨e, he, h⟩ := Exc.bind_ok_iff.1 h
  injection h with h
  subst h
  have hbase : p.units = some base := by
    revert hb
    cases p.units with
    | none => intro h; cases h
    | some u => intro h; injection h with h; rw [h]
  obtain ⟨ua, hua, d1, _, p1, _⟩ := toUnits_ok hF ha'
  obtain ⟨ub, hub, d2, _, p2, _⟩ := toUnits_ok hF hb''
  obtain ⟨_, s2, s3⟩ := sub_ok he
  refine ⟨p, base, a, b, ua, ub, Dict.get_eq_ok.1 hp, hbase, State.da_ok.1 ha, State.da_ok.1 hb', hua, hub, rfl, ?_, ?_⟩
  · intro x hx
    show x ∈ e.dims
    rw [s2, d1]; simp [hx]
  · intro ix
    refine ⟨a'.at' ix, b'.at' ix, ?_, ?_, ?_⟩
    · unfold DataArray.at'; rw [d1]; exact p1 _
    · unfold DataArray.at'; rw [d2]; exact p2 _
    · show e.at' ix / seconds dt * 1 = _
      rw [s3, mul_one]

theorem insertNet_ok {R : Registry} {inProps : PropDict} {inst : String} {state new : State} {dt : Int} :
    ∀ {names : List String} {diag diag' : Dict DataArray}, names.Nodup →
      insertNet R inProps inst state new dt names diag = .ok diag' →
      (∀ n ∈ names, tendencyName n inst ∉ Dict.keys diag ∧
        ∃ d, netTendency R inProps state new dt n = .ok d ∧ diag'.get? (tendencyName n inst) = some d) ∧
      (∀ k, (∀ n ∈ names, k ≠ tendencyName n inst) → diag'.get? k = diag.get? k) := by
  intro names
  induction names with
  | nil =>
    intro diag diag' _ h
    unfold insertNet at h
    cases h
    exact ⟨fun n hn => by simp at hn, fun k _ => rfl⟩
  | cons n names ih =>
    intro diag diag' hnd h
    rw [List.nodup_cons] at hnd
    unfold insertNet at h
    split at h
    · cases h
    · rename_i hcl
      obtain ⟨d, hd, h⟩ := Exc.bind_ok_iff.1 h
      obtain ⟨i1, i2⟩ := ih hnd.2 h
      refine ⟨?_, ?_⟩
      · intro m hm
        rcases List.mem_cons.1 hm with rfl | hm
        · refine ⟨hcl, d, hd, ?_⟩
          rw [i2 _ (fun y hy e => hnd.1 (by rw [tendencyName_inj e]; exact hy)), Dict.get?_set_self]
        · obtain ⟨j1, j2⟩ := i1 m hm
          exact ⟨fun hc => j1 ((Dict.mem_keys_set _ _ _ _).2 (Or.inr hc)), j2⟩
      · intro k hk
        rw [i2 k (fun m hm => hk m (List.mem_cons_of_mem _ hm)),
          Dict.get?_set_ne _ _ (Ne.symm (hk n List.mem_cons_self))]

/-- C40: with tendencies in diagnostics, a successful call has for each stepped quantity
its net rate of change over the step, relative to the caller's state as the call left it
(for Leapfrog: the filtered state), under a name no diagnostic had; all other
diagnostics are those of the step. -/
theorem net_tendency_in_diagnostics {R : Registry} (hF : R.Faithful) {inProps outProps : PropDict} {inst : String}
    {call : τ → σ → State → Int → τ × σ × State × Except Err (Dict DataArray × State)}
    {x x' : τ} {s s' : σ} {state st' : State} {dt : Int} {diag : Dict DataArray} {new : State}
    (hnd : outProps.keys.Nodup)
    (h : tsCall R inProps outProps inst true call x s state dt = (x', s', st', .ok (diag, new))) :
    ∃ o, call x s state dt = (x', s', st', .ok o) ∧
      (∀ n ∈ outProps.keys, tendencyName n inst ∉ Dict.keys o.1 ∧
        ∃ d, diag.get? (tendencyName n inst) = some d ∧ IsNetTendency R inProps st' new dt n d) ∧
      (∀ k, (∀ n ∈ outProps.keys, k ≠ tendencyName n inst) → diag.get? k = o.1.get? k) := by
  unfold tsCall at h
  simp only [Prod.mk.injEq] at h
  obtain ⟨h1, h2, h3, h⟩ := h
  obtain ⟨o, ho, h⟩ := Exc.bind_ok_iff.1 h
  simp only [if_true] at h
  obtain ⟨dg, hdg, h⟩ := Exc.bind_ok_iff.1 h
  simp only [Except.ok.injEq, Prod.mk.injEq] at h
  obtain ⟨rfl, hnew⟩ := h
  subst h1 h2 h3
  refine ⟨o, ?_, ?_, ?_⟩
  · exact Prod.ext rfl (Prod.ext rfl (Prod.ext rfl ho))
  · intro n hn
    obtain ⟨i1, d, hd, hg⟩ := (insertNet_ok hnd hdg).1 n hn
    refine ⟨i1, d, hg, ?_⟩
    rw [← hnew]
    exact netTendency_ok hF hd
  · exact (insertNet_ok hnd hdg).2

/-- C40: if a diagnostic already has such a name the call raises; it raises RuntimeError
unless computing the tendency of an earlier quantity raised. -/
theorem net_tendency_name_clash {R : Registry} {inProps outProps : PropDict} {inst : String}
    {call : τ → σ → State → Int → τ × σ × State × Except Err (Dict DataArray × State)}
    {x : τ} {s : σ} {state : State} {dt : Int} {o : Dict DataArray × State} {n : String}
    (hcall : (call x s state dt).2.2.2 = .ok o) (hn : n ∈ outProps.keys) (hclash : tendencyName n inst ∈ Dict.keys o.1) :
    ∃ e, (tsCall R inProps outProps inst true call x s state dt).2.2.2 = .error e ∧
      ((∀ m ∈ outProps.keys, ∃ d, netTendency R inProps (call x s state dt).2.2.1
        (copyUntouched (call x s state dt).2.2.1 o.2) dt m = .ok d) → e = .runtimeError) := by
  have gen : ∀ (names : List String) (diag : Dict DataArray) (st new : State), n ∈ names →
      tendencyName n inst ∈ Dict.keys diag → ∃ e, insertNet R inProps inst st new dt names diag = .error e ∧
        ((∀ m ∈ names, ∃ d, netTendency R inProps st new dt m = .ok d) → e = .runtimeError) := by
    intro names
    induction names with
    | nil => intro diag st new h; simp at h
    | cons m names ih =>
      intro diag st new hm hc
      unfold insertNet
      split
      · exact ⟨_, rfl, fun _ => rfl⟩
      · rename_i hcl
        have hne : m ≠ n := by rintro rfl; exact hcl hc
        have hm' : n ∈ names := by
          rcases List.mem_cons.1 hm with rfl | h
          · exact absurd rfl hne
          · exact h
        cases hd : netTendency R inProps st new dt m with
        | error e =>
          refine ⟨e, rfl, fun hall => ?_⟩
          obtain ⟨d, hd'⟩ := hall m List.mem_cons_self
          rw [hd] at hd'; cases hd'
        | ok d =>
          rw [Exc.ok_bind]
          obtain ⟨e, he, hr⟩ := ih _ st new hm' ((Dict.mem_keys_set _ _ _ _).2 (Or.inr hc))
          exact ⟨e, he, fun hall => hr (fun k hk => hall k (List.mem_cons_of_mem _ hk))⟩
  obtain ⟨e, he, hr⟩ := gen outProps.keys o.1 (call x s state dt).2.2.1
    (copyUntouched (call x s state dt).2.2.1 o.2) hn hclash
  refine ⟨e, ?_, hr⟩
  unfold tsCall
  simp only
  rw [hcall, Exc.ok_bind]
  simp only [if_true]
  rw [he]
  rfl

/-- Without tendencies in diagnostics, and apart from them with, a call of a
TendencyStepper is its `_call`: the same entries of the new state when that has all keys
of the caller's state (which C31 shows of each stepper). -/
theorem tsCall_state {R : Registry} {inProps outProps : PropDict} {inst : String} {tid : Bool}
    {call : τ → σ → State → Int → τ × σ × State × Except Err (Dict DataArray × State)}
    {x x' : τ} {s s' : σ} {state st' : State} {dt : Int} {diag : Dict DataArray} {new : State}
    (h : tsCall R inProps outProps inst tid call x s state dt = (x', s', st', .ok (diag, new))) :
    ∃ o, call x s state dt = (x', s', st', .ok o) ∧ (tid = false → diag = o.1) ∧
      ((∀ q ∈ Dict.keys st', q ∈ Dict.keys o.2) → (∀ q, Dict.get? new q = Dict.get? o.2 q)) := by
  unfold tsCall at h
  simp only [Prod.mk.injEq] at h
  obtain ⟨h1, h2, h3, h⟩ := h
  obtain ⟨o, ho, h⟩ := Exc.bind_ok_iff.1 h
  obtain ⟨dg, hdg, h⟩ := Exc.bind_ok_iff.1 h
  simp only [Except.ok.injEq, Prod.mk.injEq] at h
  obtain ⟨rfl, hnew⟩ := h
  subst h1 h2 h3
  refine ⟨o, Prod.ext rfl (Prod.ext rfl (Prod.ext rfl ho)), ?_, ?_⟩
  · rintro rfl
    simp only [Bool.false_eq_true, if_false, Except.ok.injEq] at hdg
    exact hdg.symm
  · intro hk q
    obtain ⟨c1, c2, c3⟩ := copyUntouched_spec (call x s state dt).2.2.1 o.2
    rw [← hnew]
    by_cases hq : q ∈ Dict.keys o.2
    · exact c2 q hq
    · rw [c3 q hq, (Dict.get?_eq_none_iff _ _).2 hq, (Dict.get?_eq_none_iff _ _).2 (fun h => hq (hk q h))]

/-- `_call` of AdamsBashforth, which leaves the caller's state alone. -/
def abCall (R : Registry) (prog : Prog σ) (ab : AB) (s : σ) (state : State) (dt : Int) :
    AB × σ × State × Except Err (Dict DataArray × State) :=
  let r := AB.call R prog ab s state dt
  (r.1, r.2.1, state, r.2.2)

/-- C31 through `TendencyStepper.__call__` for AdamsBashforth, with or without
tendencies in diagnostics. -/
theorem ab_stepper_untouched {R : Registry} {prog : Prog σ} {inProps outProps : PropDict} {inst : String} {tid : Bool}
    {ab ab' : AB} {s s' : σ} {state st' : State} {dt : Int} {diag : Dict DataArray} {new : State}
    (h : tsCall R inProps outProps inst tid (abCall R prog) ab s state dt = (ab', s', st', .ok (diag, new))) :
    st' = state ∧ ∃ r, (prog s state dt).2 = .ok r ∧
      (∀ q, q ∈ Dict.keys new ↔ q ∈ Dict.keys state) ∧
      (∀ t, Dict.get? state "time" = some (.time t) → Dict.get? new "time" = some (.time t)) ∧
      ∀ q, q ∉ Dict.keys r.1 → Dict.get? new q = Dict.get? state q := by
  obtain ⟨⟨d, n⟩, ho, _, hst⟩ := tsCall_state h
  unfold abCall at ho
  simp only [Prod.mk.injEq] at ho
  obtain ⟨_, _, rfl, ho⟩ := ho
  obtain ⟨r, hr, _, hk, ht, hu⟩ := ab_untouched ho
  have hst := hst (fun q hq => (hk q).2 hq)
  refine ⟨rfl, r, hr, ?_, ?_, ?_⟩
  · intro q
    rw [← hk q, ← Dict.get?_isSome_iff, hst, Dict.get?_isSome_iff]
  · intro t htt; rw [hst]; exact ht t htt
  · intro q hq; rw [hst]; exact hu q hq

/-- C31 through `TendencyStepper.__call__` for Leapfrog. -/
theorem lf_stepper_untouched {R : Registry} {prog : Prog σ} (hd : prog.Dicts) {inProps outProps : PropDict}
    {inst : String} {tid : Bool} {lf lf' : LF} {s s' : σ} {state st' : State} {dt : Int} {diag : Dict DataArray}
    {new : State}
    (h : tsCall R inProps outProps inst tid (LF.call R prog) lf s state dt = (lf', s', st', .ok (diag, new))) :
    ∃ r, (prog s state dt).2 = .ok r ∧
      (∀ q, q ∈ Dict.keys new ↔ q ∈ Dict.keys state) ∧
      (∀ t, Dict.get? state "time" = some (.time t) → Dict.get? new "time" = some (.time t)) ∧
      ∀ q, q ∉ Dict.keys r.1 → Dict.get? new q = Dict.get? state q ∧ Dict.get? st' q = Dict.get? state q := by
  obtain ⟨⟨d, n⟩, ho, _, hst⟩ := tsCall_state h
  obtain ⟨r, hr, _, hk, hk', ht, hu⟩ := lf_untouched hd ho
  have hst := hst (fun q hq => (hk q).2 ((hk' q).1 hq))
  refine ⟨r, hr, ?_, ?_, ?_⟩
  · intro q
    rw [← hk q, ← Dict.get?_isSome_iff, hst, Dict.get?_isSome_iff]
  · intro t htt; rw [hst]; exact (ht t htt).1
  · intro q hq; rw [hst]; exact hu q hq

/-! ## The composite of a stepper -/

theorem addInto_nodup {R : Registry} {ts : Dict DataArray} : ∀ {t t' : Dict DataArray}, t.keys.Nodup →
    addInto R ts t = .ok t' → t'.keys.Nodup := by
  induction ts with
  | nil => intro t t' hn h; cases h; exact hn
  | cons kv ts ih =>
    intro t t' hn h
    obtain ⟨k, v⟩ := kv
    rw [addInto_cons] at h
    obtain ⟨w, _, h⟩ := Exc.bind_ok_iff.1 h
    exact ih (Dict.nodup_keys_set hn _ _) h

/-- The composite every TendencyStepper calls (tendencystepper.py:143) returns a
dictionary, whatever its components: the assumption `Prog.Dicts` always holds. -/
theorem composite_prog_dicts (R : Registry) (cs : List (Comp σ)) : Prog.Dicts (callImplicitComposite R cs) := by
  have gen : ∀ (fs : List (σ → σ × Except Err TendOut)) (s : σ) (t d : Dict DataArray) (r : TendOut),
      t.keys.Nodup → (compositeLoop R fs s t d).2 = .ok r → (Dict.keys r.1).Nodup := by
    intro fs
    induction fs with
    | nil => intro s t d r hn h; cases h; exact hn
    | cons f fs ih =>
      intro s t d r hn h
      unfold compositeLoop at h
      split at h
      · cases h
      · split at h
        · cases h
        · rename_i t' ht'
          exact ih _ _ _ _ (addInto_nodup hn ht') h
  intro s state dt r h
  exact gen _ s [] [] r List.nodup_nil h

/-! ## Examples -/

def Demo.tsProps : PropDict := [("h", { dims := some ["z"], units := some "m" })]

/-- C40: a step of `h` (in km) reported in m per second. -/
example : ∃ x' s' st' diag new d, tsCall Demo.reg Demo.tsProps Demo.tsProps "Stepper" true
      (abCall Demo.reg Demo.abProg) ⟨1, none, []⟩ 2 Demo.state Demo.dt = (x', s', st', .ok (diag, new)) ∧
    Dict.get? diag "h_tendency_from_Stepper" = some d ∧ d.at' (fun _ => 1) = 8000 := by
  have h : Exc.test (tsCall Demo.reg Demo.tsProps Demo.tsProps "Stepper" true
      (abCall Demo.reg Demo.abProg) ⟨1, none, []⟩ 2 Demo.state Demo.dt).2.2.2
      (fun p => match Dict.get? p.1 "h_tendency_from_Stepper" with
        | some d => decide (d.at' (fun _ => 1) = 8000)
        | none => false) = true := by decide +kernel
  obtain ⟨⟨diag, new⟩, h1, h2⟩ := Exc.test_ok h
  simp only at h2
  cases hd : Dict.get? diag "h_tendency_from_Stepper" with
  | none => rw [hd] at h2; cases h2
  | some d =>
    rw [hd] at h2
    exact ⟨_, _, _, diag, new, d, Prod.ext rfl (Prod.ext rfl (Prod.ext rfl h1)), hd, of_decide_eq_true h2⟩

/-- C40: a component's diagnostic of that name makes the call raise. -/
example : (tsCall Demo.reg Demo.tsProps Demo.tsProps "Stepper" true
      (abCall Demo.reg (fun (n : Nat) _ _ => (n + 1, .ok ([("h", Demo.hTend 1000)],
        [("h_tendency_from_Stepper", Demo.prof)])))) ⟨1, none, []⟩ 2 Demo.state Demo.dt).2.2.2 =
    .error .runtimeError := by
  apply Exc.failsWith_error
  decide +kernel

end Verif
