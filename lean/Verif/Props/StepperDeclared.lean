import Verif.Props.StepperInit
import Verif.Props.TendencyStepper
/-!
# C68: what a TendencyStepper declares and what it returns
-/

namespace Verif

variable {σ τ : Type}

/-- What is assumed of pint: multiplying units by a second, writing the result in base
units and dividing by a second again gives base units of the same dimensions. -/
def Registry.SecondsCancel (R : Registry) : Prop :=
  ∀ v a b, R.parse v = some a → R.cleanUnits (v ++ " s") = .ok b →
    ∃ w, R.parse (perSecond b) = some w ∧ w.dim = a.dim ∧ w.scale = 1 ∧ w.offset = 0

theorem tsDiagLoop_keys (cs : List Class) (out : PropDict) (k : String) :
    k ∈ (tsDiagLoop cs out).keys ↔ k ∈ out.keys ∨ ∃ c ∈ cs, k ∈ c.diagProps.keys := by
  induction cs generalizing out with
  | nil => simp [tsDiagLoop]
  | cons c cs ih =>
    unfold tsDiagLoop
    rw [ih, Dict.mem_keys_update]
    simp [or_assoc]

theorem insertTs_get? {inst : String} {t diag out : PropDict} (ht : t.keys.Nodup)
    (h : insertTsTendencies inst t diag = .ok out) :
    (∀ kv ∈ t, ∃ u d, kv.2.units = some u ∧ kv.2.dims = some d ∧
      out.get? (tendencyName kv.1 inst) = some { dims := some d, units := some u }) ∧
    (∀ k, k ∈ out.keys ↔ k ∈ diag.keys ∨ ∃ n ∈ t.keys, k = tendencyName n inst) ∧
    ∀ k, (∀ n ∈ t.keys, k ≠ tendencyName n inst) → out.get? k = diag.get? k := by
  induction t generalizing diag with
  | nil => injection h with h; subst h; simp [Dict.keys]
  | cons e t ih =>
    obtain ⟨n, p⟩ := e
    rw [Dict.keys_cons, List.nodup_cons] at ht
    unfold insertTsTendencies at h
    split at h
    · rename_i u d hu hd
      obtain ⟨h1, h2, h3⟩ := ih ht.2 h
      refine ⟨?_, ?_, ?_⟩
      · intro kv hkv
        rcases List.mem_cons.1 hkv with rfl | hkv
        · refine ⟨u, d, hu, hd, ?_⟩
          rw [h3 _ (fun m hm e => ht.1 (by rw [tendencyName_inj e]; exact hm)), Dict.get?_set_self]
        · exact h1 kv hkv
      · intro k
        rw [h2, Dict.mem_keys_set, Dict.keys_cons]
        simp only [List.mem_cons, exists_eq_or_imp]
        tauto
      · intro k hk
        rw [Dict.keys_cons] at hk
        rw [h3 k (fun m hm => hk m (List.mem_cons_of_mem _ hm)),
          Dict.get?_set_ne _ _ (fun e => hk n (by simp) e.symm)]
    · cases h

/-- The parts of a TendencyStepper made with tendencies in diagnostics. -/
theorem tsConstruct_tid {R : Registry} {o : SetOrder} {g : Tracers} {cs : List (Class × Obj)} {inst : String}
    {c : Class} (h : tsConstruct R o g cs true inst = .ok c) :
    c.outProps.keys.Nodup ∧
    (∀ k, k ∈ c.diagProps.keys ↔ (∃ cl ∈ cs.map (·.1), k ∈ cl.diagProps.keys) ∨
      ∃ n ∈ c.outProps.keys, k = tendencyName n inst) ∧
    ∀ n ∈ c.outProps.keys, ∃ v b dd ip, R.cleanUnits (v ++ " s") = .ok b ∧
      c.diagProps.get? (tendencyName n inst) = some { dims := some dd, units := some v } ∧
      c.inProps.get? n = some ip ∧ ip.units = some b := by
  obtain ⟨_, hcls, _⟩ := tsConstruct_parts h
  obtain ⟨inP0, t, m⟩ := tsClass_ok hcls
  have hdiag : insertTsTendencies inst t (tsDiagLoop (cs.map (·.1)) []) = .ok c.diagProps := by
    unfold tsClass at hcls
    obtain ⟨_, _, hcls⟩ := Exc.bind_ok_iff.1 hcls
    obtain ⟨diag, h2, hcls⟩ := Exc.bind_ok_iff.1 hcls
    obtain ⟨_, _, hcls⟩ := Exc.bind_ok_iff.1 hcls
    injection hcls with hcls; subst hcls
    unfold tsDiagProps tsTendencyProps at h2
    rw [if_pos rfl, m.inputs, Exc.ok_bind, m.tend, Exc.ok_bind] at h2
    exact h2
  obtain ⟨h1, h2, _⟩ := insertTs_get? (combineProperties_nodup m.tend) hdiag
  have hins : ∀ kv ∈ c.outProps, ∃ ip, (c.inProps ++ addedInputs c.inProps c.outProps).get? kv.1 = some ip ∧
      ip.units = kv.2.units := by
    unfold tsConstruct at h
    obtain ⟨comp, _, h⟩ := Exc.bind_ok_iff.1 h
    obtain ⟨c', hc', h⟩ := Exc.bind_ok_iff.1 h
    obtain ⟨i, h3, h⟩ := Exc.bind_ok_iff.1 h
    have : c' = c := by rw [hcls] at hc'; injection hc' with hc'; exact hc'.symm
    subst this
    obtain ⟨_, _, _, _, h4, _⟩ := construct_ok (g1 := (construct R g c' true inst).1)
      (c := (construct R g c' true inst).2.1) (i := i) (by rw [← h3])
    obtain ⟨h5, _, h6⟩ := insertProps_stepper m.kind m.outNodup (h4 rfl)
    intro kv hkv
    obtain ⟨_, u, ip, _, hu, hip, _, hiu⟩ := h6 kv hkv
    rw [h5] at hip
    exact ⟨ip, hip, hiu.trans hu.symm⟩
  refine ⟨m.outNodup, ?_, ?_⟩
  · intro k
    rw [h2, tsDiagLoop_keys, m.outKeys]
    simp [Dict.keys]
  · intro n hn
    obtain ⟨q, hq⟩ := Dict.get?_of_mem_keys hn
    have hmem := Dict.mem_of_get? hq
    obtain ⟨p, hp, hts⟩ := m.outEntry hmem
    obtain ⟨_, v, b, hv, hb, hqb⟩ := timesSecond_dims hts
    obtain ⟨u, d, hu, hd, hg⟩ := h1 (n, p) hp
    have : u = v := by
      rw [show (n, p).2.units = p.units from rfl, hv] at hu; injection hu with hu; exact hu.symm
    subst this
    obtain ⟨ip, hip, hiu⟩ := hins (n, q) hmem
    have hin : ∃ ip', c.inProps.get? n = some ip' :=
      Dict.get?_of_mem_keys (((combined_properties_cover R o _ _ _ m.inp).1 n).2 ⟨c.outProps, by simp, hn⟩)
    obtain ⟨ip', hip'⟩ := hin
    rw [Dict.get?_append, hip'] at hip
    injection hip with hip; subst hip
    exact ⟨u, b, d, ip', hb, hg, hip', hiu.trans hqb⟩

/-- C68.  A TendencyStepper made with tendencies in diagnostics declares what it returns:
the names in the returned diagnostics are those in its `diagnostic_properties` if that is
so for its components, and each net tendency has units compatible with the declared ones.
Missing from the full claim: the units are not the declared ones
(`ts_declared_units_not_returned`). -/
theorem ts_diagnostics_declared_partial (R : Registry) (hF : R.Faithful) (hS : R.SecondsCancel) (o : SetOrder)
    (g : Tracers) (cs : List (Class × Obj)) (inst : String) (c : Class)
    (h : tsConstruct R o g cs true inst = .ok c)
    (call : τ → σ → State → Int → τ × σ × State × Except Err (Dict DataArray × State))
    (x x' : τ) (s s' : σ) (state st' : State) (dt : Int) (diag : Dict DataArray) (new : State)
    (hcomp : ∀ r, (call x s state dt).2.2.2 = .ok r →
      ∀ k, k ∈ Dict.keys r.1 ↔ ∃ cl ∈ cs.map (·.1), k ∈ cl.diagProps.keys)
    (hcall : tsCall R c.inProps c.outProps inst true call x s state dt = (x', s', st', .ok (diag, new))) :
    (∀ k, k ∈ diag.keys ↔ k ∈ c.diagProps.keys) ∧
    ∀ n ∈ c.outProps.keys, ∃ p v d u, c.diagProps.get? (tendencyName n inst) = some p ∧ p.units = some v ∧
      diag.get? (tendencyName n inst) = some d ∧ d.attrs.get? "units" = some u ∧
      IsNetTendency R c.inProps st' new dt n d ∧
      (R.isValidUnit v = true → R.unitsAreCompatible v u = .ok true) := by
  obtain ⟨hnd, hkeys, hdecl⟩ := tsConstruct_tid h
  obtain ⟨r, hr, hnet, hrest⟩ := net_tendency_in_diagnostics hF hnd hcall
  constructor
  · intro k
    rw [hkeys]
    by_cases hk : ∃ n ∈ c.outProps.keys, k = tendencyName n inst
    · obtain ⟨n, hn, rfl⟩ := hk
      obtain ⟨_, d, hd, _⟩ := hnet n hn
      exact ⟨fun _ => Or.inr ⟨n, hn, rfl⟩, fun _ => Dict.mem_keys_of_get? hd⟩
    · have hk' : ∀ n ∈ c.outProps.keys, k ≠ tendencyName n inst := fun n hn e => hk ⟨n, hn, e⟩
      have e := hrest k hk'
      have : k ∈ diag.keys ↔ k ∈ Dict.keys r.1 := by
        rw [← Dict.get?_isSome_iff, ← Dict.get?_isSome_iff, e]
      rw [this, hcomp r (by rw [hr]) k]
      exact ⟨Or.inl, fun h' => h'.resolve_right hk⟩
  · intro n hn
    obtain ⟨v, b, dd, ip, hb, hg, hip, hiu⟩ := hdecl n hn
    obtain ⟨_, d, hd, hN⟩ := hnet n hn
    have hu : d.attrs.get? "units" = some (perSecond b) := by
      obtain ⟨p, base, _, _, _, _, hp, hbase, _, _, _, _, hattrs, _⟩ := hN
      rw [hip] at hp; injection hp with hp; subst hp
      rw [hiu] at hbase; injection hbase with hbase; subst hbase
      rw [hattrs]; rfl
    refine ⟨_, v, d, perSecond b, hg, rfl, hd, hu, hN, ?_⟩
    intro hv
    obtain ⟨a, ha⟩ := Option.isSome_iff_exists.1 hv
    obtain ⟨w, hw, hdim, _⟩ := hS v a b ha hb
    unfold Registry.unitsAreCompatible Registry.unit
    rw [ha, hw]
    simp [Exc.ok_bind, hdim]

/-- The full claim fails.  If the components give the tendency of `n` in units that are
not base units, whatever the state and however it is stepped, the net tendency is
returned in units different from those declared. -/
theorem ts_declared_units_not_returned (R : Registry) (hF : R.Faithful) (hS : R.SecondsCancel) (o : SetOrder)
    (g : Tracers) (cs : List (Class × Obj)) (inst : String) (c : Class)
    (h : tsConstruct R o g cs true inst = .ok c)
    (n : String) (hn : n ∈ c.outProps.keys) (p : QProps) (v : String) (a : PintUnit)
    (hp : c.diagProps.get? (tendencyName n inst) = some p) (hv : p.units = some v)
    (ha : R.parse v = some a) (hoff : a.offset = 0) (hscale : a.scale ≠ 1)
    (call : τ → σ → State → Int → τ × σ × State × Except Err (Dict DataArray × State))
    (x x' : τ) (s s' : σ) (state st' : State) (dt : Int) (diag : Dict DataArray) (new : State)
    (hcall : tsCall R c.inProps c.outProps inst true call x s state dt = (x', s', st', .ok (diag, new))) :
    ∃ d u, diag.get? (tendencyName n inst) = some d ∧ d.attrs.get? "units" = some u ∧
      R.unitsAreSame v u = .ok false := by
  obtain ⟨hnd, hkeys, hdecl⟩ := tsConstruct_tid h
  obtain ⟨r, hr, hnet, hrest⟩ := net_tendency_in_diagnostics hF hnd hcall
  obtain ⟨v', b, dd, ip, hb, hg, hip, hiu⟩ := hdecl n hn
  rw [hp] at hg; injection hg with hg; subst hg
  injection hv with hv; subst hv
  obtain ⟨_, d, hd, p, base, _, _, _, _, hp', hbase, _, _, _, _, hattrs, _⟩ := hnet n hn
  rw [hip] at hp'; injection hp' with hp'; subst hp'
  rw [hiu] at hbase; injection hbase with hbase; subst hbase
  refine ⟨d, perSecond b, hd, by rw [hattrs]; rfl, ?_⟩
  obtain ⟨w, hw, hdim, hw1, hw0⟩ := hS v' a b ha hb
  unfold Registry.unitsAreSame Registry.unit
  rw [ha, hw]
  simp only [Exc.ok_bind, PintUnit.sameQty, PintUnit.toBase, hoff, hw1, hw0, hdim]
  simp [hscale]

/-! A stepper for a component that warms `T` by some kelvin per day. -/

def Demo.dayTable : Dict PintUnit :=
  [("K", Demo.mkU [1, 0, 0, 0] 1 0 (by decide)), ("kelvin", Demo.mkU [1, 0, 0, 0] 1 0 (by decide)),
   ("K day^-1", Demo.mkU [1, 0, -1, 0] (1 / 86400) 0 (by decide +kernel)),
   ("K day^-1 s", Demo.mkU [1, 0, 0, 0] (1 / 86400) 0 (by decide +kernel)),
   ("kelvin s^-1", Demo.mkU [1, 0, -1, 0] 1 0 (by decide)), ("m", Demo.mkU [0, 1, 0, 0] 1 0 (by decide)),
   ("s", Demo.mkU [0, 0, 1, 0] 1 0 (by decide))]

def Demo.dayReg : Registry where
  parse s := Demo.dayTable.get? s
  clean s := if s = "K day^-1 s" then "kelvin" else s

theorem Demo.dayReg_faithful : Demo.dayReg.Faithful := by
  have key : (Demo.dayTable.all fun x => Demo.dayTable.all fun y =>
      !(decide (x.2.dim = y.2.dim) && decide (x.2.scale + x.2.offset = y.2.scale + y.2.offset)) ||
      (decide (x.2.scale = y.2.scale) && decide (x.2.offset = y.2.offset))) = true := by
    decide +kernel
  intro s t a b hs ht hd he
  have h1 := Dict.mem_of_get? hs
  have h2 := Dict.mem_of_get? ht
  rw [List.all_eq_true] at key
  have k1 := key _ h1
  rw [List.all_eq_true] at k1
  have k2 := k1 _ h2
  simp only [Bool.or_eq_true, Bool.not_eq_true', Bool.and_eq_false_iff, Bool.and_eq_true,
    decide_eq_true_eq, decide_eq_false_iff_not] at k2
  rcases k2 with (k2 | k2) | k2
  · exact absurd hd k2
  · exact absurd he k2
  · exact k2

theorem Demo.dayReg_seconds : Demo.dayReg.SecondsCancel := by
  have key : (Demo.dayTable.all fun x =>
      match Demo.dayReg.cleanUnits (x.1 ++ " s") with
      | .error _ => true
      | .ok b => match Demo.dayReg.parse (perSecond b) with
        | none => false
        | some w => decide (w.dim = x.2.dim) && (decide (w.scale = 1) && decide (w.offset = 0))) = true := by
    decide +kernel
  intro v a b hv hb
  rw [List.all_eq_true] at key
  have k := key _ (Dict.mem_of_get? hv)
  simp only [hb] at k
  split at k
  · cases k
  · rename_i w hw
    simp only [Bool.and_eq_true, decide_eq_true_eq] at k
    exact ⟨w, hw, k⟩

def Demo.dayCls : Class :=
  { kind := .tendency
    inProps := [("S", { dims := some ["z"], units := some "m" })]
    outProps := [("T", { dims := some ["z"], units := some "K day^-1" })]
    diagProps := [("d", { dims := some ["z"], units := some "m" })] }

def Demo.dayArr (u : String) (q : Rat) : DataArray :=
  { dims := ["z"], arr := { shape := [2], get := fun _ => q }, attrs := [("units", u)] }

def Demo.dayState : State :=
  [("T", .da (Demo.dayArr "K" 300)), ("S", .da (Demo.dayArr "m" 1))]

/-- A scheme that adds one kelvin. -/
def Demo.dayCall (n : Nat) (s : Nat) (state : State) (_ : Int) :
    Nat × Nat × State × Except Err (Dict DataArray × State) :=
  (n, s + 1, state, .ok ([("d", Demo.dayArr "m" 1)], [("T", .da (Demo.dayArr "K" 301))]))

theorem Demo.day_runs : ∃ c, tsConstruct Demo.dayReg Demo.order {} [(Demo.dayCls, Demo.tendObj)] true "Stepper" = .ok c ∧
    c.outProps.keys = ["T"] ∧
    c.diagProps.get? "T_tendency_from_Stepper" = some { dims := some ["z"], units := some "K day^-1" } ∧
    ∃ diag new, tsCall Demo.dayReg c.inProps c.outProps "Stepper" true Demo.dayCall 0 0 Demo.dayState 1000000 =
      (0, 1, Demo.dayState, .ok (diag, new)) ∧
      (diag.get? "T_tendency_from_Stepper").map (fun d => (d.attrs, d.at' (fun _ => 0))) =
        some ([("units", "kelvin s^-1")], 1) := by
  have key : Exc.test (tsConstruct Demo.dayReg Demo.order {} [(Demo.dayCls, Demo.tendObj)] true "Stepper")
      (fun c => decide (c.outProps.keys = ["T"]) &&
        (decide (c.diagProps.get? "T_tendency_from_Stepper" = some { dims := some ["z"], units := some "K day^-1" }) &&
        Exc.test (tsCall Demo.dayReg c.inProps c.outProps "Stepper" true Demo.dayCall 0 0 Demo.dayState 1000000).2.2.2
          (fun r => decide ((r.1.get? "T_tendency_from_Stepper").map (fun d => (d.attrs, d.at' (fun _ => 0))) =
            some ([("units", "kelvin s^-1")], 1))))) = true := by
    decide +kernel
  obtain ⟨c, hc, ht⟩ := Exc.test_ok key
  simp only [Bool.and_eq_true, decide_eq_true_eq] at ht
  obtain ⟨⟨diag, new⟩, hr, hd⟩ := Exc.test_ok ht.2.2
  exact ⟨c, hc, ht.1, ht.2.1, diag, new, Prod.ext rfl (Prod.ext rfl (Prod.ext rfl hr)), of_decide_eq_true hd⟩

example : ∃ c diag u, tsConstruct Demo.dayReg Demo.order {} [(Demo.dayCls, Demo.tendObj)] true "Stepper" = .ok c ∧
    (∀ k, k ∈ Dict.keys diag ↔ k ∈ c.diagProps.keys) ∧
    (Dict.get? diag "T_tendency_from_Stepper").bind (fun d : DataArray => d.attrs.get? "units") = some u ∧
    Demo.dayReg.unitsAreCompatible "K day^-1" u = .ok true ∧ Demo.dayReg.unitsAreSame "K day^-1" u = .ok false := by
  obtain ⟨c, hc, ho, hp, diag, new, hcall, _⟩ := Demo.day_runs
  obtain ⟨h1, h2⟩ := ts_diagnostics_declared_partial _ Demo.dayReg_faithful Demo.dayReg_seconds _ _ _ _ c hc
    Demo.dayCall 0 0 0 1 _ _ _ diag new (by
      intro r hr k
      injection hr with hr; subst hr
      simp [Dict.keys, Demo.dayCls]) hcall
  have hT : "T" ∈ c.outProps.keys := by rw [ho]; simp
  obtain ⟨p, v, d, u, hp', hv, hd, hu, _, hcompat⟩ := h2 "T" hT
  rw [show tendencyName "T" "Stepper" = "T_tendency_from_Stepper" by decide] at hp' hd
  rw [hp] at hp'; injection hp' with hp'; subst hp'
  injection hv with hv; subst hv
  obtain ⟨d', u', hd', hu', hs⟩ := ts_declared_units_not_returned _ Demo.dayReg_faithful Demo.dayReg_seconds _ _ _ _ c hc
    "T" hT _ "K day^-1" (hp := hp) (hv := rfl) (a := Demo.mkU [1, 0, -1, 0] (1 / 86400) 0 (by decide +kernel)) rfl rfl
    (by decide +kernel) (call := Demo.dayCall) (hcall := hcall)
  rw [show tendencyName "T" "Stepper" = "T_tendency_from_Stepper" by decide, hd] at hd'
  injection hd' with hd'; subst hd'
  rw [hu] at hu'; injection hu' with hu'; subst hu'
  exact ⟨c, diag, u, hc, h1, by rw [hd]; exact hu, hcompat rfl, hs⟩

end Verif
