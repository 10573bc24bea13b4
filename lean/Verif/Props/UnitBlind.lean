import Verif.Props.StateUnits
import Verif.Props.Nested
import Verif.Props.TracerDifferencing
/-!
# C76: components and the units of the state
-/

namespace Verif

/-! ## Reading a state in other units -/

theorem SameState.get? {R : Registry} {ch : UnitChange} {s s' : State} (h : SameState R ch s s') (n : String) :
    (Dict.get? s n = none ∧ Dict.get? s' n = none) ∨
    ∃ v w, Dict.get? s n = some v ∧ Dict.get? s' n = some w ∧ SameEntry R (ch n) v w := by
  induction h with
  | nil => exact .inl ⟨rfl, rfl⟩
  | @cons a b l l' hab _ ih =>
    obtain ⟨k, v⟩ := a
    obtain ⟨k', w⟩ := b
    obtain ⟨rfl, hv⟩ := hab
    rw [Dict.get?_cons, Dict.get?_cons]
    by_cases hk : k = n
    · rw [if_pos hk, if_pos hk]
      subst hk
      exact .inr ⟨v, w, rfl, rfl, hv⟩
    · rw [if_neg hk, if_neg hk]
      exact ih

theorem SameState.keys {R : Registry} {ch : UnitChange} {s s' : State} (h : SameState R ch s s') :
    Dict.keys s = Dict.keys s' := by
  induction h with
  | nil => rfl
  | cons hab _ ih =>
    show _ :: _ = _ :: _
    exact List.cons_eq_cons.2 ⟨hab.1, ih⟩

theorem SameInUnits.layout {R : Registry} {c : Option (String × String)} {a b : DataArray}
    (h : SameInUnits R c a b) : a.dims = b.dims ∧ a.arr.shape = b.arr.shape := by
  cases c with
  | none => cases (show a = b from h); exact ⟨rfl, rfl⟩
  | some p => exact ⟨h.1, h.2.1⟩

theorem SameState.da {R : Registry} {ch : UnitChange} {s s' : State} (h : SameState R ch s s') (n : String) :
    Exc.Rel (SameInUnits R (ch n)) (s.da n) (s'.da n) := by
  unfold State.da
  rcases h.get? n with ⟨h1, h2⟩ | ⟨v, w, h1, h2, hv⟩
  · rw [h1, h2]; rfl
  · rw [h1, h2]
    cases v with
    | time t => cases w with
      | time t' => rfl
      | da b => exact hv.elim
    | da a => cases w with
      | time t' => exact hv.elim
      | da b => exact hv

theorem Exc.Rel.eq_bind {α β γ : Type} {P : α → β → Prop} {x : Except Err α} {y : Except Err β}
    {f : α → Except Err γ} {g : β → Except Err γ} (h : Exc.Rel P x y) (hfg : ∀ a b, P a b → f a = g b) :
    (x >>= f) = (y >>= g) := by
  cases x with
  | error e => cases y with
    | error e' => cases (show e = e' from h); rfl
    | ok b => exact h.elim
  | ok a => cases y with
    | error e' => exact h.elim
    | ok b => exact hfg a b h

/-- What `to_units` gives. -/
theorem toUnits_known {R : Registry} (hR : R.Faithful) {a : DataArray} {u units : String} {ua t : PintUnit}
    (hu : a.attrs.get? "units" = some u) (pa : R.parse u = some ua) (pt : R.parse units = some t) :
    if ua.dim = t.dim then ∃ r, a.toUnits R units = .ok r ∧ r.dims = a.dims ∧
      r.arr = ⟨a.arr.shape, fun idx => (a.arr.get idx * ua.scale + ua.offset - t.offset) / t.scale⟩
    else a.toUnits R units = .error .valueError := by
  have hne := ne_of_gt t.scale_pos
  unfold DataArray.toUnits DataArray.dataArrayToUnits
  simp only [hu]
  unfold Registry.unit
  simp only [pa, pt, Exc.ok_bind]
  cases hq : ua.sameQty t with
  | true =>
    unfold PintUnit.sameQty PintUnit.toBase at hq
    simp only [Bool.and_eq_true, decide_eq_true_eq, one_mul] at hq
    obtain ⟨e1, e2⟩ := hR _ _ _ _ pa pt hq.1 hq.2
    rw [if_pos hq.1]
    refine ⟨a, rfl, rfl, ?_⟩
    cases ha : a.arr with
    | mk sh g =>
      congr 1
      funext idx
      rw [e1, e2]
      field_simp
      ring
  | false =>
    simp only [Bool.false_eq_true, if_false]
    by_cases hd : ua.dim = t.dim
    · rw [if_pos hd, if_pos hd]
      exact ⟨_, rfl, rfl, rfl⟩
    · rw [if_neg hd, if_neg hd]

/-- Both are converted to the same numbers. -/
theorem toUnits_sameInUnits {R : Registry} (hR : R.Faithful) {c : Option (String × String)} {a b : DataArray}
    (h : SameInUnits R c a b) (units : String) :
    Exc.Rel (fun x y => x.dims = y.dims ∧ x.arr = y.arr) (a.toUnits R units) (b.toUnits R units) := by
  cases c with
  | none =>
    cases (show a = b from h)
    cases a.toUnits R units with
    | error e => rfl
    | ok v => exact ⟨rfl, rfl⟩
  | some p =>
    obtain ⟨u, w⟩ := p
    obtain ⟨hd, hs, hu, hw, hv⟩ := h
    obtain ⟨ua, ub, pa, pb, hdim, -⟩ := hv []
    have key : ∀ idx, a.arr.get idx * ua.scale + ua.offset = b.arr.get idx * ub.scale + ub.offset := by
      intro idx
      obtain ⟨ua', ub', pa', pb', -, e⟩ := hv idx
      rw [pa] at pa'; rw [pb] at pb'
      cases pa'; cases pb'
      exact e
    cases hp : R.parse units with
    | none =>
      unfold DataArray.toUnits DataArray.dataArrayToUnits
      simp only [hu, hw]
      unfold Registry.unit
      rw [pa, pb, hp]
      rfl
    | some t =>
      have h1 := toUnits_known hR hu pa hp
      have h2 := toUnits_known hR hw pb hp
      rw [← hdim] at h2
      split at h1
      · rename_i e
        rw [if_pos e] at h2
        obtain ⟨r, hr, r1, r2⟩ := h1
        obtain ⟨r', hr', r1', r2'⟩ := h2
        rw [hr, hr']
        refine ⟨by rw [r1, r1', hd], ?_⟩
        rw [r2, r2', hs]
        congr 1
        funext idx
        rw [key]
      · rename_i e
        rw [if_neg e] at h2
        rw [h1, h2]
        rfl

theorem getNumpyArray_layout {a b : DataArray} (h : a.dims = b.dims ∧ a.arr = b.arr) (od : List String) (lens : Dict Nat) :
    getNumpyArray a od lens = getNumpyArray b od lens := by
  unfold getNumpyArray
  rw [h.1, h.2]

theorem getArray_sameInUnits {R : Registry} (hR : R.Faithful) {c : Option (String × String)} {a b : DataArray}
    (h : SameInUnits R c a b) (units : String) (od : List String) (lens : Dict Nat) :
    getArray R a units od lens = getArray R b units od lens := by
  unfold getArray
  have ht := toUnits_sameInUnits hR h units
  have hu : (∃ u w, a.attrs.get? "units" = some u ∧ b.attrs.get? "units" = some w) ∨
      (a.attrs.get? "units" = none ∧ b.attrs.get? "units" = none) := by
    cases c with
    | none =>
      cases (show a = b from h)
      cases hx : a.attrs.get? "units" with
      | none => exact .inr ⟨rfl, rfl⟩
      | some u => exact .inl ⟨u, u, rfl, rfl⟩
    | some p => exact .inl ⟨p.1, p.2, h.2.2.1, h.2.2.2.1⟩
  rcases hu with ⟨u, w, h1, h2⟩ | ⟨h1, h2⟩
  · rw [h1, h2]
    dsimp only
    revert ht
    generalize a.toUnits R units = x
    generalize b.toUnits R units = y
    intro ht
    cases x with
    | error e => cases y with
      | error e' => cases (show e = e' from ht); rfl
      | ok y => exact ht.elim
    | ok x => cases y with
      | error e' => exact ht.elim
      | ok y => exact getNumpyArray_layout ht od lens
  · rw [h1, h2]

section
variable {R : Registry} {ch : UnitChange} {state state' : State}

theorem matchLoop_sameState (h : SameState R ch state state') (props : PropDict) (wild : List String)
    (lens : Dict Nat) : matchLoop state props wild lens = matchLoop state' props wild lens := by
  induction props generalizing wild lens with
  | nil => rfl
  | cons kv rest ih =>
    obtain ⟨n, p⟩ := kv
    unfold matchLoop
    congr 1
    funext du
    refine (h.da n).eq_bind ?_
    intro a b hab
    rw [hab.layout.1, hab.layout.2]
    congr 1
    funext lens'
    dsimp only
    split
    · rfl
    · exact ih _ _

theorem getWildcard_sameState (h : SameState R ch state state') (props : PropDict) :
    getWildcard state props = getWildcard state' props := by
  unfold getWildcard
  rw [matchLoop_sameState h]

theorem rawInputs_sameState (hR : R.Faithful) (h : SameState R ch state state') (wild : List String)
    (lens : Dict Nat) (props : PropDict) (out : Dict NDArray) :
    rawInputs R state wild lens props out = rawInputs R state' wild lens props out := by
  induction props generalizing out with
  | nil => rfl
  | cons kv rest ih =>
    obtain ⟨n, p⟩ := kv
    unfold rawInputs
    have : rawInput R state wild lens n p = rawInput R state' wild lens n p := by
      unfold rawInput
      congr 1
      funext du
      refine (h.da n).eq_bind ?_
      intro a b hab
      simp only [getArray_sameInUnits hR hab]
    rw [this]
    congr 1
    funext r
    exact ih _

theorem getNumpyArrays_sameState (hR : R.Faithful) (h : SameState R ch state state') (props : PropDict) :
    getNumpyArrays R state props = getNumpyArrays R state' props := by
  unfold getNumpyArrays
  rw [getWildcard_sameState h]
  congr 1
  funext wl
  exact rawInputs_sameState hR h _ _ _ _

theorem restore_sameState (h : SameState R ch state state') (raw : Dict NDArray) (outP inP : PropDict)
    (ign : List String) (im : Bool) :
    restoreDataArrays raw outP state inP ign im = restoreDataArrays raw outP state' inP ign im := by
  unfold restoreDataArrays
  rw [getWildcard_sameState h]

theorem pack_sameState (hR : R.Faithful) (h : SameState R ch state state') (g : Tracers) (p : Packer) :
    p.pack R g state = p.pack R g state' := by
  unfold Packer.pack
  simp only [getNumpyArrays_sameState hR h]

theorem unpack_sameState (h : SameState R ch state state') (g : Tracers) (p : Packer) (arr : NDArray) (m : String) :
    p.unpack g arr state m = p.unpack g arr state' m := by
  unfold Packer.unpack
  simp only [restore_sameState h]

theorem prepare_sameState (hR : R.Faithful) (h : SameState R ch state state') (hT : ch "time" = none) (g : Tracers)
    (c : Class) (i : Inst) : prepare R g c i state = prepare R g c i state' := by
  unfold prepare checkInputs
  rw [h.keys, getNumpyArrays_sameState hR h]
  simp only [pack_sameState hR h]
  have : Dict.get state "time" = Dict.get state' "time" := by
    unfold Dict.get
    rcases h.get? "time" with ⟨h1, h2⟩ | ⟨v, w, h1, h2, hv⟩
    · rw [h1, h2]
    · rw [h1, h2]
      rw [hT] at hv
      cases v with
      | da a => cases w with
        | time t' => exact hv.elim
        | da b => cases (show a = b from hv); rfl
      | time t => cases w with
        | time t' => cases (show t = t' from hv); rfl
        | da b => exact hv.elim
  rw [this]

theorem takeTracers_sameState (h : SameState R ch state state') (g : Tracers) (i : Inst) (raw : Dict NDArray)
    (m : String) : takeTracers g i raw state m = takeTracers g i raw state' m := by
  unfold takeTracers
  cases i.packer with
  | none => rfl
  | some p => simp only [unpack_sameState h]

/-- **C76.**  A component does exactly the same with two states that differ only in the
units their quantities are given in: it calls `array_call` with the same arrays and
returns the same results or raises the same exception. -/
theorem component_calls_unit_blind {σ : Type} (hR : R.Faithful) (h : SameState R ch state state')
    (hT : ch "time" = none) (g : Tracers) (c : Class) (i : Inst) (s : σ) :
    (∀ ac, callTendency R g c i ac s state = callTendency R g c i ac s state') ∧
    (∀ ac dt, callStepper R g c i ac s state dt = callStepper R g c i ac s state' dt) ∧
    (∀ ac, callDiagnostic R g c i ac s state = callDiagnostic R g c i ac s state') := by
  refine ⟨fun ac => ?_, fun ac dt => ?_, fun ac => ?_⟩
  · unfold callTendency
    rw [prepare_sameState hR h hT]
    unfold finishTendency
    simp only [takeTracers_sameState h, restore_sameState h]
  · unfold callStepper
    rw [prepare_sameState hR h hT]
    unfold finishStepper
    simp only [takeTracers_sameState h, restore_sameState h]
  · unfold callDiagnostic
    rw [prepare_sameState hR h hT]
    unfold finishDiagnostic
    simp only [restore_sameState h]

end

/-! ## Composites and wrappers -/

/-- The same result for the same physical state. -/
def UnitFree {σ α : Type} (R : Registry) (ch : UnitChange) (f : σ → State → α) : Prop :=
  ∀ s state state', SameState R ch state state' → f s state = f s state'

section
variable {σ : Type} {R : Registry} {ch : UnitChange}

theorem compositeLoop_congr {fs gs : List (σ → σ × Except Err TendOut)} (h : fs = gs) (s : σ) (t d : Dict DataArray) :
    compositeLoop R fs s t d = compositeLoop R gs s t d := by rw [h]

/-- **C76, composites.**  So do composites of such components. -/
theorem composites_unit_blind :
    (∀ cs : List (Comp σ), (∀ c ∈ cs, UnitFree R ch c.callT) → UnitFree R ch (callTendencyComposite R cs)) ∧
    (∀ (cs : List (Comp σ)) (dt : Int),
      (∀ c ∈ cs, UnitFree R ch c.callT ∧ UnitFree R ch (fun s state => c.callI s state dt)) →
      UnitFree R ch (fun s state => callImplicitComposite R cs s state dt)) ∧
    ∀ cs : List (DiagComp σ), (∀ c ∈ cs, UnitFree R ch c.call) → UnitFree R ch (callDiagnosticComposite cs) := by
  refine ⟨?_, ?_, ?_⟩
  · intro cs hcs s state state' h
    refine compositeLoop_congr (List.map_congr_left fun c hc => ?_) _ _ _
    funext s
    exact hcs c hc s state state' h
  · intro cs dt hcs s state state' h
    refine compositeLoop_congr (List.map_congr_left fun c hc => ?_) _ _ _
    funext s
    unfold implicitCall
    rw [(hcs c hc).1 s state state' h, show c.callI s state dt = c.callI s state' dt from (hcs c hc).2 s state state' h]
  · intro cs hcs s state state' h
    unfold callDiagnosticComposite
    rw [List.map_congr_left (g := fun c s => c.call s state') fun c hc => ?_]
    funext s
    exact hcs c hc s state state' h

theorem sub_layout {a b b' : DataArray} (h : b.dims = b'.dims ∧ b.arr = b'.arr) : a.sub b = a.sub b' := by
  unfold DataArray.sub DataArray.binop DataArray.len DataArray.at'
  rw [h.1, h.2]

/-- **C76, wrappers.**  So do TimeDifferencingWrapper and UpdateFrequencyWrapper around
such a component. -/
theorem wrappers_unit_blind (hR : R.Faithful) (hT : ch "time" = none) :
    (∀ (outProps : PropDict) (stepper : σ → State → Int → σ × Except Err (Dict DataArray × State)) (dt : Int),
      UnitFree R ch (fun s state => stepper s state dt) →
      UnitFree R ch (fun s state => differencingCall R outProps stepper s state dt)) ∧
    ∀ {Out : Type} (comp : σ → State → Option Int → σ × Except Err Out) (w : UFW Out) (dt : Option Int),
      (∀ dt, UnitFree R ch (fun s state => comp s state dt)) →
      UnitFree R ch (fun s state => w.call State.time comp s state dt) := by
  refine ⟨?_, ?_⟩
  · intro outProps stepper dt hst s state state' h
    have hd : ∀ n a, differencedTendency R outProps state dt n a = differencedTendency R outProps state' dt n a := by
      intro n a
      unfold differencedTendency
      rw [h.keys]
      congr 1
      funext _
      refine (h.da n).eq_bind ?_
      intro x y hxy
      congr 1
      funext u
      refine (toUnits_sameInUnits hR hxy u).eq_bind ?_
      intro x' y' hxy'
      rw [sub_layout hxy']
    have hl : ∀ N out, differenceLoop R outProps state dt N out = differenceLoop R outProps state' dt N out := by
      intro N
      induction N with
      | nil => intro out; rfl
      | cons kv N ih =>
        intro out
        obtain ⟨n, v⟩ := kv
        cases v with
        | da a =>
          unfold differenceLoop
          simp only [hd, ih]
        | time t =>
          unfold differenceLoop
          simp only [ih]
    unfold differencingCall
    dsimp only
    rw [show stepper s state dt = stepper s state' dt from hst s state state' h]
    simp only [hl]
  · intro Out comp w dt hc s state state' h
    have htime : State.time state = State.time state' := by
      unfold State.time
      rcases h.get? "time" with ⟨h1, h2⟩ | ⟨v, w, h1, h2, hv⟩
      · rw [h1, h2]
      · rw [h1, h2]
        rw [hT] at hv
        cases v with
        | da a => cases w with
          | time t' => exact hv.elim
          | da b => rfl
        | time t => cases w with
          | time t' => cases (show t = t' from hv); rfl
          | da b => exact hv.elim
    have hrun : ∀ s, runComponent comp s state dt = runComponent comp s state' dt := by
      intro s
      unfold runComponent
      cases dt with
      | none => exact hc none s state state' h
      | some dt =>
        dsimp only
        rw [show comp s state (some dt) = comp s state' (some dt) from hc (some dt) s state state' h]
        have : ∀ s, comp s state none = comp s state' none := fun s => hc none s state state' h
        simp only [this]
    dsimp only
    unfold UFW.call UFW.refresh
    simp only [htime, hrun]

/-! ## ScalingWrapper -/

theorem SameState.set {s s' : State} (h : SameState R ch s s') {k : String} {v w : Val}
    (hv : SameEntry R (ch k) v w) : SameState R ch (Dict.set s k v) (Dict.set s' k w) := by
  induction h with
  | nil => exact List.Forall₂.cons ⟨rfl, hv⟩ List.Forall₂.nil
  | @cons a b l l' hab hl ih =>
    obtain ⟨q, x⟩ := a
    obtain ⟨q', y⟩ := b
    obtain ⟨rfl, hxy⟩ := hab
    unfold Dict.set
    by_cases hq : q = k
    · subst hq
      simp only [if_true]
      exact List.Forall₂.cons ⟨rfl, hv⟩ hl
    · simp only [if_neg hq]
      exact List.Forall₂.cons ⟨rfl, hxy⟩ ih

/-- The scaled inputs whose units differ are in units without offset. -/
def OffsetFree (R : Registry) (ch : UnitChange) (w : Scaling) : Prop :=
  ∀ q ∈ w.input.keys, ∀ u v, ch q = some (u, v) → ∀ a b, R.parse u = some a → R.parse v = some b →
    a.offset = 0 ∧ b.offset = 0

theorem scaled_sameInUnits {c : Option (String × String)} {a b : DataArray} (h : SameInUnits R c a b) (f : Rat)
    (ho : ∀ u v, c = some (u, v) → ∀ a b, R.parse u = some a → R.parse v = some b → a.offset = 0 ∧ b.offset = 0) :
    SameInUnits R c (a.scaled f) (b.scaled f) := by
  cases c with
  | none => cases (show a = b from h); rfl
  | some p =>
    obtain ⟨u, v⟩ := p
    obtain ⟨h1, h2, h3, h4, h5⟩ := h
    refine ⟨h1, h2, h3, h4, fun idx => ?_⟩
    obtain ⟨x, y, hx, hy, hd, e⟩ := h5 idx
    obtain ⟨o1, o2⟩ := ho u v rfl x y hx hy
    refine ⟨x, y, hx, hy, hd, ?_⟩
    show f * a.arr.get idx * x.scale + x.offset = f * b.arr.get idx * y.scale + y.offset
    rw [o1, o2, add_zero, add_zero] at e
    rw [o1, o2, add_zero, add_zero, mul_assoc, mul_assoc, e]

theorem scaleInputsV_sameState {w : Scaling} (ho : OffsetFree R ch w) {S S' : State} (h : SameState R ch S S')
    (ks : List String) {out out' : State} (hout : SameState R ch out out') :
    Exc.Rel (SameState R ch) (scaleInputsV w.input S ks out) (scaleInputsV w.input S' ks out') := by
  induction ks generalizing out out' with
  | nil => exact hout
  | cons k ks ih =>
    unfold scaleInputsV
    rcases h.get? k with ⟨h1, h2⟩ | ⟨v, v', h1, h2, hv⟩
    · rw [h1, h2]; rfl
    · rw [h1, h2]
      dsimp only
      cases hf : w.input.get? k with
      | none => exact ih (hout.set hv)
      | some c =>
        dsimp only
        cases v with
        | time t => cases v' with
          | time t' => rfl
          | da b => exact hv.elim
        | da a => cases v' with
          | time t' => exact hv.elim
          | da b =>
            refine ih (hout.set ?_)
            exact scaled_sameInUnits hv c (ho k (Dict.mem_keys_of_get? hf))

theorem callV_sameState {w : Scaling} (ho : OffsetFree R ch w) (o : Obj) (inKeys : List String)
    {F : State → Option Int → Except Err (State × State)}
    (hF : ∀ dt S S', SameState R ch S S' → F S dt = F S' dt) {S S' : State} (h : SameState R ch S S') (dt : Option Int) :
    w.callV o inKeys F S dt = w.callV o inKeys F S' dt := by
  unfold Scaling.callV
  refine (scaleInputsV_sameState ho h inKeys ?_).eq_bind ?_
  · rcases h.get? "time" with ⟨h1, h2⟩ | ⟨v, v', h1, h2, hv⟩
    · rw [h1, h2]; exact List.Forall₂.nil
    · rw [h1, h2]; exact List.Forall₂.cons ⟨rfl, hv⟩ List.Forall₂.nil
  · intro s1 s1' h1
    simp only [hF _ _ _ h1]

/-- **C76, ScalingWrapper, what holds.**  A ScalingWrapper around a component that does
the same for the same physical state does too, if the scaled inputs are in units
without offset (not, for example, in degrees Celsius). -/
theorem scaling_unit_blind_partial {w : Scaling} (ho : OffsetFree R ch w) (o : Obj) (inKeys : List String)
    {comp : WComp σ} {F : State → Option Int → Except Err (State × State)} (hF : ReturnsSame comp F)
    (hblind : ∀ dt S S', SameState R ch S S' → F S dt = F S' dt) (m m' : WMem σ) (state state' : RState)
    (hs : Valid m state) (hs' : Valid m' state') (h : SameState R ch (m.vals state) (m'.vals state')) (dt : Option Int) :
    Exc.Rel (fun r r' =>
        (w.call o inKeys comp m state dt).1.vals r.1 = (w.call o inKeys comp m' state' dt).1.vals r'.1 ∧
        (w.call o inKeys comp m state dt).1.vals r.2 = (w.call o inKeys comp m' state' dt).1.vals r'.2)
      (w.call o inKeys comp m state dt).2 (w.call o inKeys comp m' state' dt).2 := by
  obtain ⟨-, a1, a2⟩ := scaling_call_refines w o inKeys hF m state hs dt
  obtain ⟨-, b1, b2⟩ := scaling_call_refines w o inKeys hF m' state' hs' dt
  rw [callV_sameState ho o inKeys hblind h dt] at a1 a2
  cases x : (w.call o inKeys comp m state dt).2 with
  | error e =>
    rw [a1 e x] at b1 b2
    cases y : (w.call o inKeys comp m' state' dt).2 with
    | error e' => cases b1 e' y; rfl
    | ok r' => cases (b2 r' y).2
  | ok r =>
    have ha := (a2 r x).2
    rw [ha] at b1 b2
    cases y : (w.call o inKeys comp m' state' dt).2 with
    | error e' => cases b1 e' y
    | ok r' =>
      have hb := (b2 r' y).2
      injection hb with hb
      injection hb with h1 h2
      exact ⟨h1, h2⟩

/-! ## Runs -/

/-- Every array has units known to the registry. -/
def KnownRates (R : Registry) (d : Dict DataArray) : Prop :=
  ∀ kv ∈ d, ∃ u a, kv.2.attrs.get? "units" = some u ∧ R.parse u = some a

/-- Every units string declared is known to the registry. -/
def KnownProps (R : Registry) (props : PropDict) : Prop :=
  ∀ kv ∈ props, ∀ u, kv.2.units = some u → ∃ a, R.parse u = some a

theorem KnownRates.set {d : Dict DataArray} (h : KnownRates R d) (k : String) {v : DataArray}
    (hv : ∃ u a, v.attrs.get? "units" = some u ∧ R.parse u = some a) : KnownRates R (Dict.set d k v) := by
  intro kv hkv
  rcases Dict.mem_set hkv with h' | rfl
  · exact h kv h'
  · exact hv

theorem KnownRates.update {d e : Dict DataArray} (h : KnownRates R d) (he : KnownRates R e) :
    KnownRates R (Dict.update d e) := by
  induction e generalizing d with
  | nil => exact h
  | cons kv e ih =>
    rw [Dict.update_cons]
    exact ih (h.set _ (he kv List.mem_cons_self)) fun x hx => he x (List.mem_cons_of_mem _ hx)

theorem addInto_known {ts t t' : Dict DataArray} (hs : KnownRates R ts) (ht : KnownRates R t)
    (h : addInto R ts t = .ok t') : KnownRates R t' := by
  induction ts generalizing t with
  | nil => cases h; exact ht
  | cons kv ts ih =>
    obtain ⟨k, v⟩ := kv
    rw [addInto_cons] at h
    obtain ⟨w, hw, h⟩ := Exc.bind_ok_iff.1 h
    refine ih (fun x hx => hs x (List.mem_cons_of_mem _ hx)) (ht.set k ?_) h
    unfold addOne at hw
    cases hk : t.get? k with
    | none =>
      rw [hk] at hw
      cases hw
      exact hs _ List.mem_cons_self
    | some x =>
      rw [hk] at hw
      have hx := ht _ (Dict.mem_of_get? hk)
      dsimp only at hw hx
      split at hw
      · obtain ⟨v', _, hw⟩ := Exc.bind_ok_iff.1 hw
        unfold DataArray.add at hw
        obtain ⟨z, _, hw⟩ := Exc.bind_ok_iff.1 hw
        cases hw
        exact hx
      · cases hw

theorem compositeLoop_known {fs : List (σ → σ × Except Err TendOut)}
    (hf : ∀ f ∈ fs, ∀ s r, (f s).2 = .ok r → KnownRates R r.1) (s : σ) {t d : Dict DataArray} (ht : KnownRates R t)
    {r : TendOut} (h : (compositeLoop R fs s t d).2 = .ok r) : KnownRates R r.1 := by
  induction fs generalizing s t d with
  | nil => cases h; exact ht
  | cons f fs ih =>
    unfold compositeLoop at h
    cases hr : (f s).2 with
    | error e => rw [hr] at h; cases h
    | ok q =>
      rw [hr] at h
      dsimp only at h
      cases ha : addInto R q.1 t with
      | error e => rw [ha] at h; cases h
      | ok t' =>
        rw [ha] at h
        exact ih (fun f hf' => hf f (List.mem_cons_of_mem _ hf')) _
          (addInto_known (hf f List.mem_cons_self s q hr) ht ha) h

theorem restoreLoop_known {raw : Dict NDArray} {outP inP : PropDict} (hP : KnownProps R outP)
    {wild : Option (List String)} {ign : List String} {ds : Dict (List String)} {lens : Dict Nat}
    {out0 out : Dict DataArray} (h0 : KnownRates R out0)
    (h : restoreLoop raw outP inP wild ign ds lens out0 = .ok out) : KnownRates R out := by
  induction ds generalizing lens out0 with
  | nil => cases h; exact h0
  | cons nd ds ih =>
    obtain ⟨n, d⟩ := nd
    unfold restoreLoop at h
    split at h
    · exact ih h0 h
    · obtain ⟨r, hr, h⟩ := Exc.bind_ok_iff.1 h
      refine ih (h0.set n ?_) h
      obtain ⟨a, u, _, hu, hat, _⟩ := (restoreOne_ok hr).exists_raw
      rw [Option.bind_eq_some_iff] at hu
      obtain ⟨p, hp, hpu⟩ := hu
      obtain ⟨b, hb⟩ := hP _ (Dict.mem_of_get? hp) u hpu
      exact ⟨u, b, by rw [hat]; rfl, hb⟩

theorem restore_known {raw : Dict NDArray} {outP : PropDict} {state : State} {inP : PropDict} {ign : List String}
    {im : Bool} {out : Dict DataArray} (hP : KnownProps R outP)
    (h : restoreDataArrays raw outP state inP ign im = .ok out) : KnownRates R out := by
  unfold restoreDataArrays at h
  obtain ⟨wl, _, h⟩ := Exc.bind_ok_iff.1 h
  obtain ⟨ds, _, h⟩ := Exc.bind_ok_iff.1 h
  exact restoreLoop_known hP (fun kv hkv => (by cases hkv)) h

/-- The units in which a component returns tendencies are known to the registry: those
it declares, and those of the tracers, if it takes them, per unit of time. -/
structure KnownTendencies (R : Registry) (g : Tracers) (c : Class) (i : Inst) : Prop where
  declared : KnownProps R c.outProps
  tracers : ∀ p, i.packer = some p → ∀ nu ∈ (Dict.update [] g.units).update (Dict.update [] p.prepend),
    ∃ a, R.parse (mulUnit nu.2 c.tendencyTimeUnit) = some a

theorem callTendency_known {g : Tracers} {c : Class} {i : Inst} (hk : KnownTendencies R g c i)
    (ac : σ → RawState → σ × Except Err (Dict NDArray × Dict NDArray)) (s : σ) (state : State) (r : TendOut)
    (h : (callTendency R g c i ac s state).2 = .ok r) : KnownRates R r.1 := by
  unfold callTendency at h
  cases hp : prepare R g c i state with
  | error e => rw [hp] at h; cases h
  | ok raw =>
    rw [hp] at h
    obtain ⟨q, _, h⟩ := Exc.bind_ok_iff.1 h
    unfold finishTendency at h
    obtain ⟨tr, htr, h⟩ := Exc.bind_ok_iff.1 h
    obtain ⟨_, _, h⟩ := Exc.bind_ok_iff.1 h
    obtain ⟨_, _, h⟩ := Exc.bind_ok_iff.1 h
    obtain ⟨tend, ht, h⟩ := Exc.bind_ok_iff.1 h
    obtain ⟨diag, _, h⟩ := Exc.bind_ok_iff.1 h
    cases h
    refine KnownRates.update ?_ (restore_known hk.declared ht)
    unfold takeTracers at htr
    cases hpk : i.packer with
    | none =>
      rw [hpk] at htr
      cases htr
      exact fun kv hkv => (by cases hkv)
    | some p =>
      rw [hpk] at htr
      obtain ⟨t, _, htr⟩ := Exc.bind_ok_iff.1 htr
      obtain ⟨out, hout, htr⟩ := Exc.bind_ok_iff.1 htr
      cases htr
      unfold Packer.unpack at hout
      obtain ⟨qd, _, hout⟩ := Exc.bind_ok_iff.1 hout
      obtain ⟨rw', _, hout⟩ := Exc.bind_ok_iff.1 hout
      refine restore_known ?_ hout
      intro kv hkv u hu
      unfold tracerProps Dict.mapVal at hkv
      rw [List.map_map, List.mem_map] at hkv
      obtain ⟨nu, hnu, rfl⟩ := hkv
      cases hu
      exact hk.tracers p hpk nu hnu

theorem unitBlind_of_free {p : Prog σ} (hfree : ∀ dt, UnitFree R ch (fun s state => p s state dt))
    (hk : ∀ s state dt r, (p s state dt).2 = .ok r → KnownRates R r.1) : UnitBlind R ch p := by
  intro s state state' dt h
  have e : p s state dt = p s state' dt := hfree dt s state state' h
  rw [← e]
  refine ⟨rfl, ?_⟩
  cases hr : (p s state dt).2 with
  | error e => rfl
  | ok r =>
    refine ⟨rfl, List.forall₂_same.2 fun kv hkv => ⟨rfl, rfl, rfl, ?_⟩⟩
    obtain ⟨u, a, hu, ha⟩ := hk s state dt r hr kv hkv
    exact ⟨u, u, hu, hu, fun idx => ⟨a, a, ha, ha, rfl, rfl⟩⟩

/-- A TendencyComponent: its class, its instance and its `array_call`. -/
structure Model.Component (σ : Type) where
  cls : Class
  inst : Inst
  arrayCall : σ → RawState → σ × Except Err (Dict NDArray × Dict NDArray)

/-- The tendencies of TendencyComponents combined, as a TendencyStepper uses them. -/
def Model.prog (R : Registry) (g : Tracers) (cs : List (Model.Component σ)) : Prog σ := fun s state _ =>
  callTendencyComposite R (cs.map fun c =>
    ⟨c.cls, ⟨requiredAttributes .tendency, [.tendency], some ⟨["self", "state"], []⟩⟩,
      fun s state => callTendency R g c.cls c.inst c.arrayCall s state,
      fun s _ _ => (s, .error .typeError)⟩) s state

/-- **C76, runs.**  For any TendencyComponents whose tendencies have known units, every
step of AdamsBashforth, Leapfrog and SSPRungeKutta gives the same physical state
whichever units the state is in (C69's hypothesis on the components is no longer
assumed but follows). -/
theorem model_steps_unit_blind (hR : R.Faithful) (hch : ch.Ok R) (hT : ch "time" = none) (g : Tracers)
    (cs : List (Model.Component σ)) (hk : ∀ c ∈ cs, KnownTendencies R g c.cls c.inst) :
    (∀ (order : Nat) (s : σ) (calls calls' : List (State × Int)),
      List.Forall₂ (fun a b => SameState R ch a.1 b.1 ∧ a.2 = b.2) calls calls' →
      List.Forall₂ (fun r r' => Exc.Rel (SameResult R ch) r.res r'.res)
        (abTrace R (Model.prog R g cs) { order := order } s calls)
        (abTrace R (Model.prog R g cs) { order := order } s calls')) ∧
    (∀ (a b : LF), LFRel R ch a b → ∀ (s : σ) (state state' : State), SameState R ch state state' → ∀ dt : Int,
      LFRel R ch (LF.call R (Model.prog R g cs) a s state dt).1 (LF.call R (Model.prog R g cs) b s state' dt).1 ∧
      Exc.Rel (SameResult R ch) (LF.call R (Model.prog R g cs) a s state dt).2.2.2
        (LF.call R (Model.prog R g cs) b s state' dt).2.2.2) ∧
    ∀ (three : Bool) (s : σ) (state state' : State), SameState R ch state state' → ∀ dt : Int,
      Exc.Rel (SameResult R ch) (ssprkCall R (Model.prog R g cs) three { order := 1 } s state dt).2.2
        (ssprkCall R (Model.prog R g cs) three { order := 1 } s state' dt).2.2 := by
  have hp : UnitBlind R ch (Model.prog R g cs) := by
    refine unitBlind_of_free (fun dt => ?_) ?_
    · refine composites_unit_blind.1 _ ?_
      intro c hc
      obtain ⟨x, _, rfl⟩ := List.mem_map.1 hc
      exact fun s state state' h => (component_calls_unit_blind hR h hT g x.cls x.inst s).1 x.arrayCall
    · intro s state dt r hr
      refine compositeLoop_known ?_ s (fun kv hkv => (by cases hkv)) hr
      intro f hf s r hr
      obtain ⟨c, hc, rfl⟩ := List.mem_map.1 hf
      obtain ⟨x, hx, rfl⟩ := List.mem_map.1 hc
      exact callTendency_known (hk x hx) _ s state r hr
  refine ⟨fun order s calls calls' h => ab_state_units_partial R hR ch hch _ hp order s calls calls' h, ?_, ?_⟩
  · intro a b hab s state state' h dt
    obtain ⟨h1, _, _, h4⟩ := lf_state_units_partial R hR ch hch _ hp a b hab s state state' h dt
    exact ⟨h1, h4⟩
  · intro three s state state' h dt
    exact (ssprk_state_units R hR ch hch hT _ hp three _ _ ⟨rfl, rfl, List.Forall₂.nil⟩ s state state' h dt).2.2

end

/-! ## Temperatures that are scaled -/

namespace Demo

/-- A temperature at one point. -/
def oneT (x : Rat) (u : String) : DataArray := ⟨[], ⟨[], fun _ => x⟩, [("units", u)]⟩

/-- A component that reads the temperature in K, as `get_numpy_array` does, and returns
it as the tendency of `T`. -/
def readsK : WComp Unit := fun m s _ =>
  match Dict.get? s "T" with
  | some (.ref l) =>
    match (m.at' l).toUnits reg "K" with
    | .ok a => ((m.alloc ⟨a.dims, a.arr, [("units", "K s^-1")]⟩).1,
        .ok ([("T", .ref (m.alloc ⟨a.dims, a.arr, [("units", "K s^-1")]⟩).2)], []))
    | .error e => (m, .error e)
  | _ => (m, .error .keyError)

/-- The same without memory. -/
def readsKV : State → Option Int → Except Err (State × State) := fun s _ =>
  match Dict.get? s "T" with
  | some (.da a) => a.toUnits reg "K" >>= fun a => .ok ([("T", .da ⟨a.dims, a.arr, [("units", "K s^-1")]⟩)], [])
  | _ => .error .keyError

theorem readsK_returnsSame : ReturnsSame readsK readsKV := by
  intro m s dt hs
  have hv : Dict.get? (m.vals s) "T" = (Dict.get? s "T").map m.val := Dict.get?_mapVal _ _ _
  unfold readsK readsKV
  rw [hv]
  cases hT : Dict.get? s "T" with
  | none => exact ⟨Keeps.refl m, fun e h => (by cases h; rfl), fun r h => (by cases h)⟩
  | some v =>
    cases v with
    | time t => exact ⟨Keeps.refl m, fun e h => (by cases h; rfl), fun r h => (by cases h)⟩
    | ref l =>
      simp only [Option.map_some, WMem.val]
      cases ha : (m.at' l).toUnits reg "K" with
      | error e => exact ⟨Keeps.refl m, fun e h => (by cases h; rfl), fun r h => (by cases h)⟩
      | ok a =>
        refine ⟨(m.alloc_extends _).keeps, fun e h => (by cases h), fun r h => ?_⟩
        injection h with h
        subst h
        refine ⟨?_, ?_, ?_, by simp [Dict.keys], by simp [Dict.keys], ?_⟩
        · simp only [WMem.vals, Dict.mapVal, List.map_cons, List.map_nil, WMem.val, m.at_alloc]
          rfl
        · simp [Unshared]
        · intro kv hkv l hl
          simp only [List.append_nil, List.mem_singleton] at hkv
          subst hkv
          injection hl with hl
          subst hl
          simp [WMem.alloc]
        · intro kv hkv l hl
          simp only [List.append_nil, List.mem_singleton] at hkv
          subst hkv
          injection hl with hl
          subst hl
          simp [WMem.alloc]

theorem readsKV_blind (ch : UnitChange) (dt : Option Int) (S S' : State) (h : SameState reg ch S S') :
    readsKV S dt = readsKV S' dt := by
  unfold readsKV
  rcases h.get? "T" with ⟨h1, h2⟩ | ⟨v, w, h1, h2, hv⟩
  · rw [h1, h2]
  · rw [h1, h2]
    cases v with
    | time t => cases w with
      | time t' => rfl
      | da b => exact hv.elim
    | da a => cases w with
      | time t' => exact hv.elim
      | da b =>
        refine (toUnits_sameInUnits reg_faithful hv "K").eq_bind ?_
        rintro x y ⟨e1, e2⟩
        rw [e1, e2]

def toDegC : UnitChange := fun q => if q = "T" then some ("K", "degC") else none

def memT (x : Rat) (u : String) : WMem Unit := ⟨(), [oneT x u]⟩

def refT : RState := [("T", .ref 0), ("time", .time 0)]

theorem memT_same (x : Rat) :
    SameState reg toDegC ((memT x "K").vals refT) ((memT (x - 27315 / 100) "degC").vals refT) := by
  refine List.Forall₂.cons ⟨rfl, rfl, rfl, rfl, rfl, ?_⟩ (List.Forall₂.cons ⟨rfl, rfl⟩ List.Forall₂.nil)
  intro idx
  refine ⟨_, _, rfl, rfl, rfl, ?_⟩
  show x * 1 + 0 = (x - 27315 / 100) * 1 + 27315 / 100
  ring

end Demo

open Demo in
/-- **C76, counterexample.**  ScalingWrapper multiplies an input in whatever units the
state has it (wrappers.py:142-148).  With the factor `c` for a temperature, around a
component that does the same in either units, the component sees temperatures
273.15 (c - 1) K apart for the same state given in K or in degC. -/
theorem scaling_depends_on_units (x c : Rat) :
    SameState reg toDegC ((memT x "K").vals refT) ((memT (x - 27315 / 100) "degC").vals refT) ∧
    ReturnsSame readsK readsKV ∧
    (∀ dt S S', SameState reg toDegC S S' → readsKV S dt = readsKV S' dt) ∧
    ∃ m m' a a',
      ({ input := [("T", c)] } : Scaling).call scTendency ["T"] readsK (memT x "K") refT none =
        (m, .ok ([("T", .ref a)], [])) ∧
      ({ input := [("T", c)] } : Scaling).call scTendency ["T"] readsK (memT (x - 27315 / 100) "degC") refT none =
        (m', .ok ([("T", .ref a')], [])) ∧
      (m.at' a).arr.get [] - (m'.at' a').arr.get [] = (c - 1) * (27315 / 100) := by
  have hk : scalingKind scTendency = some .tendency := by decide +kernel
  have h : ∀ (y : Rat) (u : String) (a : PintUnit), reg.parse u = some a → a.dim = [1, 0, 0, 0] →
      ∃ m l, ({ input := [("T", c)] } : Scaling).call scTendency ["T"] readsK (memT y u) refT none =
        (m, .ok ([("T", .ref l)], [])) ∧ (m.at' l).arr.get [] = c * y * a.scale + a.offset := by
    intro y u a ha hd
    have hK : reg.parse "K" = some (mkU [1, 0, 0, 0] 1 0 (by decide)) := rfl
    obtain ⟨q, hq⟩ := toUnits_isOk (R := reg) (v := (oneT y u).scaled c) (own := u) (units := "K") rfl ha hK hd
    obtain ⟨_, e, _, _, hsame, _⟩ := toUnits_ok reg_faithful hq
    cases (show some u = some _ from e)
    obtain ⟨a1, a2, h1, h2, _, h4⟩ := hsame []
    cases h1.symm.trans hK
    cases h2.symm.trans ha
    have hin : scaleInputs [("T", c)] refT ["T"] (memT y u) (timeOf refT) =
        (⟨(), [oneT y u, (oneT y u).scaled c]⟩, .ok [("time", .time 0), ("T", .ref 1)]) := rfl
    have hcomp : readsK ⟨(), [oneT y u, (oneT y u).scaled c]⟩ [("time", .time 0), ("T", .ref 1)] none =
        (⟨(), [oneT y u, (oneT y u).scaled c, ⟨q.dims, q.arr, [("units", "K s^-1")]⟩]⟩, .ok ([("T", .ref 2)], [])) := by
      show (match ((oneT y u).scaled c).toUnits reg "K" with | .ok a => _ | .error e => _) = _
      rw [hq]
      rfl
    refine ⟨⟨(), [oneT y u, (oneT y u).scaled c, ⟨q.dims, q.arr, [("units", "K s^-1")]⟩]⟩, 2, ?_, ?_⟩
    · rw [scaling_call_eq _ _ _ _ _ _ _ hin hk]
      rw [if_neg (by simp [takesTimestep]), ite_self, hcomp]
      rfl
    · show q.arr.get [] = _
      have h4' : q.arr.get [] * 1 + 0 = c * y * a.scale + a.offset := h4
      rw [← h4']
      ring
  obtain ⟨m, l, e, hm⟩ := h x "K" _ rfl rfl
  obtain ⟨m', l', e', hm'⟩ := h (x - 27315 / 100) "degC" _ rfl rfl
  refine ⟨memT_same x, readsK_returnsSame, readsKV_blind _, m, m', l, l', e, e', ?_⟩
  rw [hm, hm']
  show c * x * 1 + 0 - (c * (x - 27315 / 100) * 1 + 27315 / 100) = _
  ring

open Demo in
/-- With the factor 2, 300 K are read as 600 K and 26.85 degC as 326.85 K. -/
example : (match ({ input := [("T", 2)] } : Scaling).call scTendency ["T"] readsK (memT 300 "K") refT none,
      ({ input := [("T", 2)] } : Scaling).call scTendency ["T"] readsK (memT (2685 / 100) "degC") refT none with
    | (m, .ok ([("T", .ref i)], [])), (m', .ok ([("T", .ref j)], [])) =>
      (m.at' i).arr.get [] == 600 && (m'.at' j).arr.get [] == 32685 / 100
    | _, _ => false) = true := by decide +kernel

/-! ## Examples -/

namespace Demo

/-- `Demo.state` with `h` in m instead of km. -/
def stateM : State :=
  [("T", .da temp), ("h", .da { dims := ["z"], arr := ⟨[3], fun i => ((i.getD 0 0 : Nat) + 1) * 1000⟩, attrs := [("units", "m")] }),
   ("time", .time 0)]

def kmToM : UnitChange := fun q => if q = "h" then some ("km", "m") else none

theorem kmToM_ok : kmToM.Ok reg := by
  intro q u w h
  unfold kmToM at h
  split at h
  · cases h; exact ⟨_, _, _, _, rfl, rfl, rfl, rfl, rfl, rfl, rfl, rfl, rfl, rfl⟩
  · cases h

theorem state_same : SameState reg kmToM state stateM := by
  refine List.Forall₂.cons ⟨rfl, rfl⟩ (List.Forall₂.cons ⟨rfl, rfl, rfl, rfl, rfl, ?_⟩
    (List.Forall₂.cons ⟨rfl, rfl⟩ List.Forall₂.nil))
  intro idx
  refine ⟨_, _, rfl, rfl, rfl, ?_⟩
  show ((idx.getD 0 0 : Nat) + 1 : Rat) * 1000 + 0 = ((idx.getD 0 0 : Nat) + 1) * 1000 * 1 + 0
  ring

def unitComp : Model.Component Nat := ⟨(made false).1, (made false).2, ac⟩

theorem unitComp_known : KnownTendencies reg {} unitComp.cls unitComp.inst := by
  have h1 : ∀ kv ∈ unitComp.cls.outProps, (kv.2.units.all fun u => (reg.parse u).isSome) = true := by decide +kernel
  have h2 : unitComp.inst.packer.isNone = true := by decide +kernel
  constructor
  · intro kv hkv u hu
    have := h1 kv hkv
    rw [hu] at this
    exact Option.isSome_iff_exists.1 this
  · intro p hp
    rw [hp] at h2
    cases h2

end Demo

open Demo in
/-- A component reading `h` in m, with `h` in km and in m. -/
example : callTendency reg {} (made false).1 (made false).2 ac 0 state =
      callTendency reg {} (made false).1 (made false).2 ac 0 stateM ∧
    Exc.test (callTendency reg {} (made false).1 (made false).2 ac 0 stateM).2 (fun r =>
      (r.2.get? "h2").map (fun a => (a.arr.get [0], a.attrs)) == some (1000, [("units", "m")])) = true :=
  ⟨(component_calls_unit_blind reg_faithful state_same rfl {} _ _ 0).1 ac, by decide +kernel⟩

open Demo in
/-- Two of them in a model, one Adams-Bashforth step and one SSP Runge-Kutta step. -/
example : Exc.Rel (SameResult reg kmToM)
      (ssprkCall reg (Model.prog reg {} [unitComp, unitComp]) true { order := 1 } 0 state 1000000).2.2
      (ssprkCall reg (Model.prog reg {} [unitComp, unitComp]) true { order := 1 } 0 stateM 1000000).2.2 ∧
    Exc.test (ssprkCall reg (Model.prog reg {} [unitComp, unitComp]) true { order := 1 } 0 state 1000000).2.2
      (fun r => decide (Dict.keys r.1 = ["h2"])) = true :=
  ⟨(model_steps_unit_blind reg_faithful kmToM_ok rfl {} [unitComp, unitComp]
      (fun c hc => by simp only [List.mem_cons, List.not_mem_nil, or_false, or_self] at hc; subst hc; exact unitComp_known)).2.2
      true 0 state stateM state_same 1000000, by decide +kernel⟩

open Demo in
/-- ScalingWrapper around `readsK` with the temperature in K and in degC, as long as
only outputs are scaled. -/
example : OffsetFree reg toDegC { tendency := [("T", 3)] } ∧ Valid (memT 300 "K") refT :=
  ⟨fun q hq => (by cases hq), fun kv hkv l hl => (by
    simp only [refT, List.mem_cons, List.not_mem_nil, or_false] at hkv
    rcases hkv with rfl | rfl
    · cases hl; decide
    · cases hl)⟩

open Demo in
/-- A scaled height may be in km or in m. -/
example : OffsetFree reg kmToM { input := [("h", 2)] } := by
  intro q _ u v h a b ha hb
  unfold kmToM at h
  split at h
  · cases h; cases ha; cases hb; exact ⟨rfl, rfl⟩
  · cases h

open Demo in
example : UnitFree reg kmToM (fun s st => (({ delta := 10 } : UFW _).call State.time
    (fun (n : Nat) st _ => callTendency reg {} (made false).1 (made false).2 ac n st) s st none)) :=
  (wrappers_unit_blind reg_faithful rfl).2 _ _ _ fun _ s _ _ h =>
    (component_calls_unit_blind reg_faithful h rfl {} _ _ s).1 ac

end Verif
