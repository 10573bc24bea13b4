import Verif.Spec.DifferenceFaults
import Verif.Props.TracerFaults
/-!
# C102 for Steppers with tendencies in diagnostics
-/

namespace Verif

theorem bcRev_spec (a b : List Nat) :
    (bcRev a b = none → ∃ k x y : Nat, a[k]? = some x ∧ b[k]? = some y ∧ x ≠ y ∧ x ≠ 1 ∧ y ≠ 1) ∧
    (∀ r, bcRev a b = some r → (∀ k x y : Nat, a[k]? = some x → b[k]? = some y → x = y ∨ x = 1 ∨ y = 1) ∧
      ∀ k : Nat, r[k]? = commonLength a[k]? b[k]?) := by
  induction a generalizing b with
  | nil =>
    refine ⟨fun h => (by unfold bcRev at h; cases h), fun r h => ?_⟩
    unfold bcRev at h
    cases h
    exact ⟨fun k x y hx => (by simp at hx), fun k => (by simp [commonLength])⟩
  | cons x a ih =>
    cases b with
    | nil =>
      refine ⟨fun h => (by unfold bcRev at h; cases h), fun r h => ?_⟩
      unfold bcRev at h
      cases h
      refine ⟨fun k x y _ hy => (by simp at hy), fun k => ?_⟩
      cases hk : (x :: a)[k]? <;> simp [commonLength]
    | cons y b =>
      obtain ⟨i1, i2⟩ := ih b
      have key : ∀ z, (if x = 1 then y else x) = z → (x = y ∨ x = 1 ∨ y = 1) →
          bcRev (x :: a) (y :: b) = (bcRev a b).map (z :: ·) →
          (bcRev (x :: a) (y :: b) = none →
            ∃ k x' y' : Nat, (x :: a)[k]? = some x' ∧ (y :: b)[k]? = some y' ∧ x' ≠ y' ∧ x' ≠ 1 ∧ y' ≠ 1) ∧
          (∀ r, bcRev (x :: a) (y :: b) = some r →
            (∀ k x' y' : Nat, (x :: a)[k]? = some x' → (y :: b)[k]? = some y' → x' = y' ∨ x' = 1 ∨ y' = 1) ∧
            ∀ k : Nat, r[k]? = commonLength (x :: a)[k]? (y :: b)[k]?) := by
        intro z hz hxy hb
        rw [hb]
        refine ⟨fun h => ?_, fun r h => ?_⟩
        · obtain ⟨k, x', y', h1, h2⟩ := i1 (by simpa using h)
          exact ⟨k + 1, x', y', by simpa using h1, by simpa using h2⟩
        · rw [Option.map_eq_some_iff] at h
          obtain ⟨r', hr, rfl⟩ := h
          obtain ⟨j1, j2⟩ := i2 r' hr
          refine ⟨fun k x' y' h1 h2 => ?_, fun k => ?_⟩
          · cases k with
            | zero => simp at h1 h2; subst h1; subst h2; exact hxy
            | succ k => exact j1 k x' y' (by simpa using h1) (by simpa using h2)
          · cases k with
            | zero => simp [commonLength, hz]
            | succ k => simpa using j2 k
      have hdef : bcRev (x :: a) (y :: b) = if x = y then (bcRev a b).map (x :: ·)
          else if x = 1 then (bcRev a b).map (y :: ·) else if y = 1 then (bcRev a b).map (x :: ·) else none := by
        conv_lhs => unfold bcRev
      by_cases h1 : x = y
      · exact key x (by split <;> omega) (.inl h1) (by rw [hdef, if_pos h1])
      by_cases h2 : x = 1
      · exact key y (by rw [if_pos h2]) (.inr (.inl h2)) (by rw [hdef, if_neg h1, if_pos h2])
      by_cases h3 : y = 1
      · exact key x (by rw [if_neg h2]) (.inr (.inr h3)) (by rw [hdef, if_neg h1, if_neg h2, if_pos h3])
      have hb : bcRev (x :: a) (y :: b) = none := by
        rw [hdef, if_neg h1, if_neg h2, if_neg h3]
      rw [hb]
      exact ⟨fun _ => ⟨0, x, y, rfl, rfl, h1, h2, h3⟩, fun r h => (by cases h)⟩

theorem zipWith_error {f : Rat → Rat → Rat} {a b : NDArray} {e : Err} (h : NDArray.zipWith f a b = .error e) :
    e = .valueError ∧ ¬ Broadcasts a.shape b.shape := by
  unfold NDArray.zipWith at h
  cases hb : bcRev a.shape.reverse b.shape.reverse with
  | some r => rw [hb] at h; cases h
  | none =>
    rw [hb] at h
    cases h
    refine ⟨rfl, fun hB => ?_⟩
    obtain ⟨k, x, y, h1, h2, h3, h4, h5⟩ := (bcRev_spec _ _).1 hb
    rcases hB k x y h1 h2 with h | h | h
    exacts [h3 h, h4 h, h5 h]

theorem zipWith_to {f : Rat → Rat → Rat} {a b d : NDArray} (h : NDArray.zipWith f a b = .ok d) :
    BroadcastTo a.shape b.shape d.shape := by
  unfold NDArray.zipWith at h
  cases hb : bcRev a.shape.reverse b.shape.reverse with
  | none => rw [hb] at h; cases h
  | some r =>
    rw [hb] at h
    cases h
    obtain ⟨h1, h2⟩ := (bcRev_spec _ _).2 r hb
    exact ⟨h1, fun k => by simpa using h2 k⟩

theorem insertDifferences_error {inst : String} {rawS rawN : Dict NDArray} {dt : Int}
    {names : List String} {diag : Dict NDArray} {e : Err}
    (h : insertDifferences inst rawS rawN dt names diag = .error e) : DifferenceFault names rawS rawN e := by
  induction names generalizing diag with
  | nil => cases h
  | cons n names ih =>
    unfold insertDifferences at h
    rcases Exc.bind_error_iff.1 h with h | ⟨a, ha, h⟩
    · obtain ⟨rfl, hn⟩ := dict_get_error h
      exact ⟨n, List.mem_cons_self, .inl hn⟩
    rcases Exc.bind_error_iff.1 h with h | ⟨b, hb, h⟩
    · obtain ⟨rfl, hn⟩ := dict_get_error h
      exact ⟨n, List.mem_cons_self, .inr hn⟩
    rcases Exc.bind_error_iff.1 h with h | ⟨d, hd, h⟩
    · obtain ⟨rfl, hn⟩ := zipWith_error h
      exact ⟨n, List.mem_cons_self, a, b, Dict.get_eq_ok.1 ha, Dict.get_eq_ok.1 hb, hn⟩
    have := ih h
    cases e with
    | keyError =>
      obtain ⟨m, hm, h1⟩ := this
      exact ⟨m, List.mem_cons_of_mem _ hm, h1⟩
    | valueError =>
      obtain ⟨m, hm, h1⟩ := this
      exact ⟨m, List.mem_cons_of_mem _ hm, h1⟩
    | _ => exact this

theorem insertDifferences_with {inst : String} {rawS rawN : Dict NDArray} {dt : Int}
    {names : List String} {diag diag' : Dict NDArray} (hn : names.Nodup)
    (h : insertDifferences inst rawS rawN dt names diag = .ok diag') :
    WithDifferences inst names rawS rawN diag diag' := by
  obtain ⟨h1, h2⟩ := insertDifferences_ok hn h
  refine ⟨fun n hm => ?_, h2⟩
  obtain ⟨a, b, d, g1, g2, g3, g4⟩ := h1 n hm
  exact ⟨a, b, d, g1, g2, g4, zipWith_to g3⟩

/-- **C102, Stepper with tendencies in diagnostics.**  If a call raises after `array_call` has
returned, then what it returned has a fault of the kind of the exception, or the differences to
the old arrays cannot be taken, or the differences do not fit what is declared for them. -/
theorem stepper_tendencies_exception_explained {σ : Type} (R : Registry) (g : Tracers) (c : Class) (i : Inst)
    (state : State) (hwf : state.WF) (hp : i.packer = none) (hi : i.tid = true)
    (ho : c.outProps.keys.Nodup) (hd : c.diagProps.keys.Nodup)
    (hao : Arranged c.inProps c.outProps) (had : Arranged c.inProps c.diagProps)
    (raw : RawState) (hprep : prepare R g c i state = .ok raw)
    (f : σ → RawState → Int → σ × Except Err (Dict NDArray × Dict NDArray)) (s : σ) (dt : Int) (e : Err)
    (h : (callStepper R g c i f s state dt).2 = .error e) :
    (f s raw dt).2 = .error e ∨ ∃ d n, (f s raw dt).2 = .ok (d, n) ∧
      (OutputFault state c.inProps c.diagProps i.ignored d e ∨
       OutputFault state c.inProps c.outProps [] n e ∨
       DifferenceFault c.outProps.keys raw.arrays n e ∨
       ∃ d', WithDifferences i.name c.outProps.keys raw.arrays n d d' ∧
         OutputFault state c.inProps c.diagProps [] d' e) := by
  have hw := prepare_wild hprep
  unfold callStepper at h
  rw [hprep] at h
  dsimp only at h
  rcases Exc.bind_error_iff.1 h with h | ⟨⟨d, n⟩, hf, h⟩
  · exact .inl h
  refine .inr ⟨d, n, hf, ?_⟩
  unfold finishStepper takeTracers at h
  rw [hp, hi] at h
  simp only [Exc.ok_bind, if_true] at h
  rcases Exc.bind_error_iff.1 h with h | ⟨_, _, h⟩
  · exact .inl (checkRaw_fault h)
  rcases Exc.bind_error_iff.1 h with h | ⟨_, _, h⟩
  · exact .inr (.inl (checkRaw_fault h))
  rcases Exc.bind_error_iff.1 h with h | ⟨d', hd', h⟩
  · exact .inr (.inr (.inl (insertDifferences_error h)))
  rcases Exc.bind_error_iff.1 h with h | ⟨_, _, h⟩
  · exact .inr (.inr (.inr ⟨d', insertDifferences_with ho hd', (restore_error hwf hd hw had h).2⟩))
  rcases Exc.bind_error_iff.1 h with h | ⟨_, _, h⟩
  · exact .inr (.inl (restore_error hwf ho hw hao h).2)
  · cases h

/-- **C102, Stepper with tracers and tendencies in diagnostics.** -/
theorem tracer_stepper_tendencies_exception_explained {σ : Type} (R : Registry) (ops : List TOp) (c : Class)
    (i : Inst) (p : Packer)
    (state : State) (hwf : state.WF) (hp : i.packer = some p) (hi : i.tid = true)
    (hdims : p.dims.count "tracer" = 1) (hstar : p.dims.count "*" ≤ 1) (hpre : (p.prepend.map (·.1)).Nodup)
    (ho : c.outProps.keys.Nodup) (hd : c.diagProps.keys.Nodup)
    (hao : Arranged c.inProps c.outProps) (had : Arranged c.inProps c.diagProps)
    (raw : RawState) (hprep : prepare R (runOps R {} ops) c i state = .ok raw)
    (f : σ → RawState → Int → σ × Except Err (Dict NDArray × Dict NDArray)) (s : σ) (dt : Int) (e : Err)
    (h : (callStepper R (runOps R {} ops) c i f s state dt).2 = .error e) :
    (f s raw dt).2 = .error e ∨ ∃ d n, (f s raw dt).2 = .ok (d, n) ∧
      (TracerFault (runOps R {} ops) p state n e ∨
       OutputFault state c.inProps c.diagProps i.ignored d e ∨
       OutputFault state c.inProps c.outProps [] (n.erase "tracers") e ∨
       DifferenceFault c.outProps.keys raw.arrays (n.erase "tracers") e ∨
       ∃ d', WithDifferences i.name c.outProps.keys raw.arrays (n.erase "tracers") d d' ∧
         OutputFault state c.inProps c.diagProps [] d' e) := by
  have hw := prepare_wild hprep
  unfold callStepper at h
  rw [hprep] at h
  dsimp only at h
  rcases Exc.bind_error_iff.1 h with h | ⟨⟨d, n⟩, hf, h⟩
  · exact .inl h
  refine .inr ⟨d, n, hf, ?_⟩
  unfold finishStepper at h
  rcases Exc.bind_error_iff.1 h with h | ⟨tr, htr, h⟩
  · exact .inl (takeTracers_error hwf hp hdims hstar hpre hprep h)
  have hrest : tr.2 = n.erase "tracers" := by
    unfold takeTracers at htr
    rw [hp] at htr
    dsimp only at htr
    obtain ⟨_, _, htr⟩ := Exc.bind_ok_iff.1 htr
    obtain ⟨_, _, htr⟩ := Exc.bind_ok_iff.1 htr
    cases htr
    rfl
  rw [hrest, hi] at h
  simp only [if_true] at h
  refine .inr ?_
  rcases Exc.bind_error_iff.1 h with h | ⟨_, _, h⟩
  · exact .inl (checkRaw_fault h)
  rcases Exc.bind_error_iff.1 h with h | ⟨_, _, h⟩
  · exact .inr (.inl (checkRaw_fault h))
  rcases Exc.bind_error_iff.1 h with h | ⟨d', hd', h⟩
  · exact .inr (.inr (.inl (insertDifferences_error h)))
  rcases Exc.bind_error_iff.1 h with h | ⟨_, _, h⟩
  · exact .inr (.inr (.inr ⟨d', insertDifferences_with ho hd', (restore_error hwf hd hw had h).2⟩))
  rcases Exc.bind_error_iff.1 h with h | ⟨_, _, h⟩
  · exact .inr (.inl (restore_error hwf ho hw hao h).2)
  · cases h

/-- **C102, a wrong shape reported otherwise.**  With tendencies in diagnostics the shape that is
not the declared one may be found by numpy while it takes differences: the same class and the same
returned arrays raise `InvalidPropertyDictError` without them and `ValueError` with them. -/
theorem stepper_tendencies_shape_valueError :
    ∃ (c0 c : Class) (i : Inst),
      construct Demo.reg {} c0 true "me" = ({}, c, .ok i) ∧
      ∃ (ac : Nat → RawState → Int → Nat × Except Err (Dict NDArray × Dict NDArray)),
        (callStepper Demo.reg {} c i ac 0 Demo.state 1000000).2 = .error .valueError ∧
        ∃ cF iF, construct Demo.reg {} c0 false "me" = ({}, cF, .ok iF) ∧
          (callStepper Demo.reg {} cF iF ac 0 Demo.state 1000000).2 = .error .invalidPropertyDict := by
  let c0 : Class :=
    { kind := .stepper
      inProps := [("h", { dims := some ["z"], units := some "km" })]
      outProps := [("h", { units := some "km" })]
      diagProps := [] }
  let ac : Nat → RawState → Int → Nat × Except Err (Dict NDArray × Dict NDArray) :=
    fun n _ _ => (n, .ok ([], [("h", ⟨[2], fun _ => 0⟩)]))
  have hrun : ∃ u, runCheckers Demo.reg c0 = .ok u := by
    have : Exc.test (runCheckers Demo.reg c0) (fun _ => true) = true := by decide +kernel
    obtain ⟨u, hu, _⟩ := Exc.test_ok this
    exact ⟨u, hu⟩
  obtain ⟨u, hu⟩ := hrun
  refine ⟨c0, (construct Demo.reg {} c0 true "me").2.1, ⟨"me", true, ["h_tendency_from_me"], none⟩, ?_,
    ac, ?_, c0, ⟨"me", false, [], none⟩, ?_, ?_⟩
  · unfold construct; rw [hu]; rfl
  · apply Exc.failsWith_error; decide +kernel
  · unfold construct; rw [hu]; rfl
  · apply Exc.failsWith_error; decide +kernel

namespace Demo

/-- The Stepper of the example below as the constructor leaves it. -/
def diffCls : Class :=
  { kind := .stepper
    inProps := [("h", { dims := some ["z"], units := some "km" })]
    outProps := [("h", { units := some "km" })]
    diagProps := [("h_tendency_from_me", { dims := some ["z"], units := some "km s^-1" })] }

/-- Hypotheses of `stepper_tendencies_exception_explained` met by calls that raise `ValueError` for
differences that cannot be taken, `InvalidPropertyDictError` for an array of one element, whose
difference does broadcast, and `ComponentMissingOutputError`. -/
example : ∃ raw, prepare reg {} diffCls ⟨"me", true, ["h_tendency_from_me"], none⟩ state = .ok raw ∧
    Arranged diffCls.inProps diffCls.outProps ∧ Arranged diffCls.inProps diffCls.diagProps ∧
    (let i : Inst := ⟨"me", true, ["h_tendency_from_me"], none⟩
     let call := fun out => (callStepper reg {} diffCls i
        (fun (s : Nat) _ _ => (s, .ok ([], out))) 0 state 1000000).2
     call [("h", ⟨[2], fun _ => 0⟩)] = .error .valueError ∧
     call [("h", ⟨[1], fun _ => 0⟩)] = .error .invalidPropertyDict ∧
     call [] = .error .missingOutput) := by
  have hok : Exc.test (prepare reg {} diffCls ⟨"me", true, ["h_tendency_from_me"], none⟩ state)
      (fun _ => true) = true := by decide +kernel
  obtain ⟨r, hr, _⟩ := Exc.test_ok hok
  refine ⟨r, hr, ?_, ?_, ?_, ?_, ?_⟩
  · intro kv hkv
    simp [diffCls] at hkv
    subst hkv
    exact ⟨⟨_, rfl⟩, ["z"], rfl, by decide⟩
  · intro kv hkv
    simp [diffCls] at hkv
    subst hkv
    exact ⟨⟨_, rfl⟩, ["z"], rfl, by decide⟩
  · apply Exc.failsWith_error; decide +kernel
  · apply Exc.failsWith_error; decide +kernel
  · apply Exc.failsWith_error; decide +kernel

/-- A Stepper that steps the temperature and the tracers on the vertical axis. -/
def diffTracerCls : Class :=
  { kind := .stepper
    inProps := [("T", { dims := some ["z", "x", "y"], units := some "K" })]
    outProps := [("T", { units := some "K" })]
    diagProps := [("T_tendency_from_me", { dims := some ["z", "x", "y"], units := some "K s^-1" })]
    usesTracers := true
    tracerDims := some ["z", "tracer"] }

/-- Hypotheses of `tracer_stepper_tendencies_exception_explained` met by a call that succeeds and
calls that raise for the tracers, for a temperature whose differences cannot be taken and for one
returned beside an undeclared array. -/
example : let i : Inst := ⟨"me", true, ["T_tendency_from_me"], some ⟨[], ["z", "tracer"], []⟩⟩
    let call := fun out => (callStepper reg oneG diffTracerCls i
        (fun (s : Nat) _ _ => (s, .ok ([], out))) 0 state 1000000).2
    (Exc.test (prepare reg oneG diffTracerCls i state) (fun _ => true) &&
     Exc.test (call [("tracers", NDArray.zeros [3, 1]), ("T", NDArray.zeros [3, 2, 2])]) (fun r =>
       decide (r.1.keys = ["T_tendency_from_me"] ∧ "T" ∈ r.2.keys ∧ "h" ∈ r.2.keys)) &&
     Exc.failsWith (call [("T", NDArray.zeros [3, 2, 2])]) .keyError &&
     Exc.failsWith (call [("tracers", NDArray.zeros [3, 1]), ("T", NDArray.zeros [3, 2, 3])]) .valueError &&
     Exc.failsWith (call [("tracers", NDArray.zeros [3, 1]), ("T", NDArray.zeros [3, 2, 2]),
       ("P", NDArray.zeros [3, 2, 2])]) .extraOutput) = true := by
  decide +kernel

end Demo

end Verif
