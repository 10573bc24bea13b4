import Verif.Props.ComponentTendencies
import Verif.Props.StepperTendencies
/-!
# C18 for Steppers
-/

namespace Verif

theorem insertStepperProps_frame {inst : String} (outProps diag inp : PropDict) (added : List String) :
    (∀ k, k ∉ outProps.keys.map (tendencyName · inst) →
      (insertStepperProps inst outProps diag inp added).1.get? k = diag.get? k) ∧
    (∀ n, n ∉ outProps.keys → (insertStepperProps inst outProps diag inp added).2.1.get? n = inp.get? n) := by
  induction outProps generalizing diag inp added with
  | nil => exact ⟨fun _ _ => rfl, fun _ _ => rfl⟩
  | cons kv outProps ih =>
    obtain ⟨x, p⟩ := kv
    simp only [Dict.keys_cons, List.map_cons, List.mem_cons, not_or]
    unfold insertStepperProps
    split
    · exact ⟨fun _ _ => rfl, fun _ _ => rfl⟩
    · exact ⟨fun _ _ => rfl, fun _ _ => rfl⟩
    · dsimp only
      split
      · refine ⟨fun k hk => ?_, fun n hn => ?_⟩
        · rw [(ih _ _ _).1 k hk.2, Dict.get?_set_ne _ _ (Ne.symm hk.1)]
        · rw [(ih _ _ _).2 n hn.2, Dict.get?_set_ne _ _ (Ne.symm hn.1)]
      · split
        · exact ⟨fun k hk => Dict.get?_set_ne _ _ (Ne.symm hk.1), fun _ _ => rfl⟩
        · split
          · exact ⟨fun k hk => Dict.get?_set_ne _ _ (Ne.symm hk.1), fun _ _ => rfl⟩
          · refine ⟨fun k hk => ?_, fun n hn => (ih _ _ _).2 n hn.2⟩
            rw [(ih _ _ _).1 k hk.2, Dict.get?_set_ne _ _ (Ne.symm hk.1)]

/-- The tendency of the first output is declared, even if an exception is raised. -/
theorem insertStepperProps_first {inst x : String} {p : QProps} {rest diag inp : PropDict} {added : List String}
    (hn : x ∉ rest.keys) (hu : p.units.isSome) (hd : ∃ d, effDims inp x p = some d) :
    ∃ q, (insertStepperProps inst ((x, p) :: rest) diag inp added).1.get? (tendencyName x inst) = some q ∧
      q.aliasName = none := by
  obtain ⟨u, hu⟩ := Option.isSome_iff_exists.1 hu
  obtain ⟨d, hd⟩ := hd
  have hk : tendencyName x inst ∉ rest.keys.map (tendencyName · inst) := by
    intro h
    obtain ⟨y, hy, he⟩ := List.mem_map.1 h
    exact hn (tendencyName_inj he ▸ hy)
  unfold insertStepperProps
  rw [hu, insertedDims_eq.2 hd]
  dsimp only
  split
  · rw [(insertStepperProps_frame _ _ _ _).1 _ hk, Dict.get?_set_self]; exact ⟨_, rfl, rfl⟩
  · split
    · rw [Dict.get?_set_self]; exact ⟨_, rfl, rfl⟩
    · split
      · rw [Dict.get?_set_self]; exact ⟨_, rfl, rfl⟩
      · rw [(insertStepperProps_frame _ _ _ _).1 _ hk, Dict.get?_set_self]; exact ⟨_, rfl, rfl⟩

/-- The class after an attempt to create a Stepper with `tendencies_in_diagnostics`. -/
theorem construct_class_stepper {R : Registry} {g : Tracers} {c : Class} {name : String} (hk : c.kind = .stepper)
    (hrun : runCheckers R c = .ok ()) :
    (construct R g c true name).2.1 =
      { c with diagProps := (insertStepperProps name c.outProps c.diagProps c.inProps []).1
               inProps := (insertStepperProps name c.outProps c.diagProps c.inProps []).2.1 } := by
  unfold construct
  rw [hrun]
  simp only [if_true, insertProps, hk]
  cases (insertStepperProps name c.outProps c.diagProps c.inProps []).2.2 <;> rfl

/-- **C18, Steppers.**  After an *attempt* to create an instance of a Stepper class with
`tendencies_in_diagnostics=True`, successful or not, no call of an existing instance
succeeds (unless that instance inserts the same diagnostic or its `array_call`
happens to return it). -/
theorem stepper_siblings_always_fail {σ : Type} (R : Registry) (g0 g00 g : Tracers) (c : Class)
    (name name0 : String) (i : Inst)
    (arrayCall : σ → RawState → Int → σ × Except Err (Dict NDArray × Dict NDArray)) (s : σ) (state : State) (dt : Int)
    (hkind : c.kind = .stepper) (hout : c.outProps.keys.Nodup)
    (hmade : construct R g0 c false name0 = (g00, c, .ok i))
    (x : String) (p : QProps) (rest : PropDict) (hx : c.outProps = (x, p) :: rest)
    (hin : x ++ "_tendency_from_" ++ name ∉ c.inProps.keys)
    (hno : x ++ "_tendency_from_" ++ name ∉ c.outProps.keys)
    (hret : ∀ raw rawD rawN, (arrayCall s raw dt).2 = .ok (rawD, rawN) →
      x ++ "_tendency_from_" ++ name ∉ rawD.keys) :
    ∃ e, (callStepper R g (construct R g c true name).2.1 i arrayCall s state dt).2 = .error e := by
  obtain ⟨hrun, _, _, hf, _⟩ := construct_ok hmade
  have hign := (hf rfl).2
  rw [construct_class_stepper hkind hrun]
  have hrun' := hrun
  unfold runCheckers at hrun'
  rw [hkind] at hrun'
  obtain ⟨_, hic, hrun'⟩ := Exc.bind_ok_iff.1 hrun'
  obtain ⟨_, _, hoc⟩ := Exc.bind_ok_iff.1 hrun'
  have hin' : ∀ kv ∈ c.inProps, kv.2.dims.isSome ∧ kv.2.units.isSome := by
    rcases decides_inputChecker c.inProps with ⟨_, h⟩ | ⟨h, _⟩
    · exact h.1
    · rw [h] at hic; cases hic
  have hdesc : Described c.inProps c.outProps := by
    unfold outputChecker at hoc
    obtain ⟨_, h1, _⟩ := Exc.bind_ok_iff.1 hoc
    rcases decides_outEntries c.inProps c.outProps with ⟨_, h⟩ | ⟨h, _⟩
    · exact h
    · rw [h] at h1; cases h1
  have hxm : (x, p) ∈ c.outProps := by rw [hx]; simp
  obtain ⟨q, hq, hqa⟩ : ∃ q, (insertStepperProps name c.outProps c.diagProps c.inProps []).1.get?
      (tendencyName x name) = some q ∧ q.aliasName = none := by
    rw [hx]
    rw [hx, Dict.keys_cons, List.nodup_cons] at hout
    exact insertStepperProps_first hout.1 (hdesc _ hxm).1 (effDims_of_described hdesc hin' _ hxm)
  have hinp : (insertStepperProps name c.outProps c.diagProps c.inProps []).2.1.get? (tendencyName x name) = none := by
    rw [(insertStepperProps_frame _ _ _ _).2 (tendencyName x name) hno, Dict.get?_eq_none_iff]; exact hin
  generalize hc' : ({ c with diagProps := (insertStepperProps name c.outProps c.diagProps c.inProps []).1
                             inProps := (insertStepperProps name c.outProps c.diagProps c.inProps []).2.1 } : Class)
    = c'
  have hcd : c'.diagProps.get? (tendencyName x name) = some q := by rw [← hc']; exact hq
  have hci : c'.inProps.get? (tendencyName x name) = none := by rw [← hc']; exact hinp
  cases hres : (callStepper R g c' i arrayCall s state dt).2 with
  | error e => exact ⟨e, rfl⟩
  | ok r =>
    exfalso
    unfold callStepper at hres
    cases hprep : prepare R g c' i state with
    | error e => rw [hprep] at hres; simp at hres
    | ok raw =>
      rw [hprep] at hres
      dsimp only at hres
      obtain ⟨rr, hrr, hres⟩ := Exc.bind_ok_iff.1 hres
      unfold finishStepper at hres
      obtain ⟨tr, _, hres⟩ := Exc.bind_ok_iff.1 hres
      obtain ⟨_, hchk, hres⟩ := Exc.bind_ok_iff.1 hres
      rw [checkRaw_ok] at hchk
      apply hchk.1
      refine ⟨(tendencyName x name, q), Dict.mem_of_get? hcd, by rw [hign]; simp, ?_⟩
      rintro k hk (e | e | ⟨ip, e, _⟩)
      · subst e; exact hret raw rr.1 rr.2 hrr hk
      · rw [hqa] at e; cases e
      · rw [hci] at e; cases e

/-- **C18 for Steppers, the part that holds.**  Creating an instance without the option, or
a second instance with the option and the same name, leaves the class unchanged. -/
theorem stepper_instances_do_not_interfere_partial (R : Registry) (g g1 g2 g3 : Tracers) (c c1 c2 c3 : Class)
    (name : String) (i1 i2 i3 : Inst) (hkind : c.kind = .stepper) (hout : c.outProps.keys.Nodup) :
    (construct R g c false name = (g1, c1, .ok i1) → c1 = c) ∧
    (construct R g c true name = (g2, c2, .ok i2) → construct R g2 c2 true name = (g3, c3, .ok i3) →
      c3 = c2) := by
  refine ⟨fun h => ((construct_ok h).2.2.2.1 rfl).1, fun h h' => ?_⟩
  obtain ⟨e1, _, e1'⟩ := insertProps_stepper hkind hout ((construct_ok h).2.2.2.2.1 rfl)
  have hk2 : c2.kind = .stepper := by rw [e1]; exact hkind
  have ho2 : c2.outProps = c.outProps := by rw [e1]
  obtain ⟨e2, _, _⟩ := insertProps_stepper hk2 (by rw [ho2]; exact hout) ((construct_ok h').2.2.2.2.1 rfl)
  have hall : ∀ kv ∈ c.outProps, kv.1 ∈ c2.inProps.keys := by
    intro kv hkv
    obtain ⟨_, _, ip, _, _, hip, _⟩ := e1' kv hkv
    exact Dict.mem_keys_of_get? hip
  have hadd : addedInputs c2.inProps c.outProps = [] := by
    unfold addedInputs
    rw [List.map_eq_nil_iff, List.filter_eq_nil_iff]
    intro kv hkv
    simpa using hall kv hkv
  have hins : inserted perSecond name c2.inProps c.outProps = inserted perSecond name c.inProps c.outProps := by
    apply inserted_congr
    intro kv hkv
    obtain ⟨d, _, ip, hd, _, hip, hipd, _⟩ := e1' kv hkv
    rw [hd]
    unfold effDims at hd ⊢
    cases hp : kv.2.dims with
    | some d' => rw [hp] at hd; simpa using hd
    | none => rw [hip]; simpa using hipd
  rw [e2, ho2, hadd, hins, List.append_nil]
  rw [e1]
  simp only
  rw [Dict.update_update_self (nodup_keys_inserted hout)]

/-- A Stepper whose input and output have different units. -/
def Demo.unitsStepper : Class :=
  { kind := .stepper
    inProps := [("h", { dims := some ["z"], units := some "km" })]
    outProps := [("h", { dims := some ["z"], units := some "m" })]
    diagProps := [] }

/-- Non-vacuity: the attempt is rejected, and the existing instance no longer works. -/
example : ∃ e, (callStepper Demo.reg {} (construct Demo.reg {} Demo.unitsStepper true "second").2.1
      ⟨"first", false, [], none⟩ (fun (n : Nat) raw _ => (n, raw.arrays.get "h" >>= fun a => .ok ([], [("h", a)])))
      0 Demo.state 1000000).2 = .error e ∧
    (construct Demo.reg {} Demo.unitsStepper true "second").2.2 = .error .invalidPropertyDict ∧
    ∃ r, (callStepper Demo.reg {} Demo.unitsStepper ⟨"first", false, [], none⟩
      (fun (n : Nat) raw _ => (n, raw.arrays.get "h" >>= fun a => .ok ([], [("h", a)])))
      0 Demo.state 1000000).2 = .ok r := by
  have hu : runCheckers Demo.reg Demo.unitsStepper = .ok () := by
    have : Exc.test (runCheckers Demo.reg Demo.unitsStepper) (fun _ => true) = true := by decide +kernel
    obtain ⟨u, hu, _⟩ := Exc.test_ok this
    exact hu
  obtain ⟨e, he⟩ := stepper_siblings_always_fail Demo.reg {} {} {} Demo.unitsStepper "second" "first"
    ⟨"first", false, [], none⟩ (fun (n : Nat) raw _ => (n, raw.arrays.get "h" >>= fun a => .ok ([], [("h", a)])))
    0 Demo.state 1000000 rfl (by decide) (by unfold construct; rw [hu]; rfl) "h" _ [] rfl (by decide) (by decide)
    (by
      intro raw rawD rawN h
      dsimp only at h
      obtain ⟨a, _, h⟩ := Exc.bind_ok_iff.1 h
      injection h with h; injection h with h1 h2
      rw [← h1]; simp [Dict.keys])
  refine ⟨e, he, Exc.failsWith_error (by decide +kernel), ?_⟩
  have : Exc.test (callStepper Demo.reg {} Demo.unitsStepper ⟨"first", false, [], none⟩
      (fun (n : Nat) raw _ => (n, raw.arrays.get "h" >>= fun a => .ok ([], [("h", a)])))
      0 Demo.state 1000000).2 (fun _ => true) = true := by decide +kernel
  obtain ⟨r, hr, _⟩ := Exc.test_ok this
  exact ⟨r, hr⟩

end Verif
