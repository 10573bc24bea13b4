import Verif.Spec.Nested
import Verif.Props.ScalingRepeat
import Verif.Props.DuckType
/-!
# C74: wrapped components are components
-/

namespace Verif

/-! ## Kinds -/

theorem wrapObj_has (own : List String) (o : Obj) (a : String) (ha : a ∉ own) (hc : a ≠ "__call__") :
    (wrapObj own o).has a = o.has a := by
  unfold Obj.has
  rw [if_neg hc, if_neg hc]
  simp only [wrapObj, List.mem_append, ha, false_or]

theorem wrapObj_interface (own : List String) (o : Obj) (h : ∀ a ∈ checkAttributes, a ∉ own) (k : Kind) :
    Interface k (wrapObj own o) ↔ Interface k o := by
  have e : ∀ a ∈ checkAttributes, a ≠ "__call__" → (wrapObj own o).has a = o.has a :=
    fun a ha hc => wrapObj_has own o a (h a ha) hc
  unfold Interface
  rw [e "input_properties" (by decide) (by decide), e "diagnostic_properties" (by decide) (by decide),
    e "array_call" (by decide) (by decide), e "output_properties" (by decide) (by decide),
    e "tendency_properties" (by decide) (by decide), e "tendencies_in_diagnostics" (by decide) (by decide),
    e "name" (by decide) (by decide)]

theorem wrapperCall_wf : wrapperCall.WF := by constructor <;> decide

theorem wrapperCall_optional : TimestepOptional wrapperCall :=
  ⟨["self", "state"], ["timestep"], rfl, rfl, by simp [wrapperCall]⟩

theorem wrapObj_kinds (own : List String) (o : Obj) (h : ∀ a ∈ checkAttributes, a ∉ own) (k : Kind) :
    isInstance k (wrapObj own o) = true ↔ Interface k o := by
  rw [duck_type_iff k _ rfl (fun s hs => by cases hs; exact wrapperCall_wf)]
  constructor
  · rintro ⟨s, _, hi, _⟩
    exact (wrapObj_interface own o h k).1 hi
  · intro hi
    exact ⟨wrapperCall, rfl, (wrapObj_interface own o h k).2 hi, .inr wrapperCall_optional⟩

theorem scalingObj_own : ∀ a ∈ checkAttributes, a ∉ ["_component", "_input_scale_factors",
    "_diagnostic_scale_factors", "_output_scale_factors", "_tendency_scale_factors",
    "_ensure_fields_have_properties"] := by decide

theorem updateObj_own : ∀ a ∈ checkAttributes, a ∉ ["component", "_update_timedelta", "_cached_output",
    "_last_update_time"] := by decide

theorem WrapOf.kinds {o p : Obj} (h : WrapOf o p) (k : Kind) :
    (isInstance k p = true ↔ Interface k o) ∧ (Interface k p ↔ Interface k o) := by
  induction h with
  | scaling => exact ⟨wrapObj_kinds _ o scalingObj_own k, wrapObj_interface _ o scalingObj_own k⟩
  | update => exact ⟨wrapObj_kinds _ o updateObj_own k, wrapObj_interface _ o updateObj_own k⟩
  | scalingMore _ ih =>
    exact ⟨(wrapObj_kinds _ _ scalingObj_own k).trans ih.2, (wrapObj_interface _ _ scalingObj_own k).trans ih.2⟩
  | updateMore _ ih =>
    exact ⟨(wrapObj_kinds _ _ updateObj_own k).trans ih.2, (wrapObj_interface _ _ updateObj_own k).trans ih.2⟩

theorem interface_unique {o : Obj} {k k' : Kind} (h : Interface k o) :
    Interface k' o ↔ k' = k ∨ TendencyLike k ∧ TendencyLike k' := by
  obtain ⟨a1, a2, a3, h⟩ := h
  unfold Interface TendencyLike
  cases k <;> cases k' <;> dsimp only at h ⊢ <;> simp_all

/-- **C74, kinds.**  However often a component with the interface of a kind is wrapped,
the result is an instance of that kind; and of no other, except that a wrapped
TendencyComponent or ImplicitTendencyComponent is an instance of both. -/
theorem wrapped_kinds {o p : Obj} {k : Kind} (hk : Interface k o) (hp : WrapOf o p) (k' : Kind) :
    isInstance k' p = true ↔ k' = k ∨ TendencyLike k ∧ TendencyLike k' :=
  (hp.kinds k').1.trans (interface_unique hk)

/-- **C74, kinds.**  So ScalingWrapper accepts a wrapped component whatever its kind. -/
theorem wrapped_accepted {o p : Obj} {k : Kind} (hk : Interface k o) (hp : WrapOf o p) (props : HasProps) :
    ∃ w, Scaling.make p props none none none none = .ok w := by
  unfold Scaling.make
  have : [Kind.diagnostic, .tendency, .implicit, .stepper].any (fun k => isInstance k p) = true := by
    rw [List.any_eq_true]
    exact ⟨k, by cases k <;> simp, (wrapped_kinds hk hp k).2 (.inl rfl)⟩
  rw [if_pos this]
  exact ⟨_, rfl⟩

/-- The kind by which ScalingWrapper calls a wrapped component. -/
theorem wrapped_scalingKind {o p : Obj} {k : Kind} (hk : Interface k o) (hp : WrapOf o p) :
    scalingKind p = some (if k = .implicit then .tendency else k) := by
  have h : ∀ k', isInstance k' p = decide (k' = k ∨ TendencyLike k ∧ TendencyLike k') := by
    intro k'
    rw [Bool.eq_iff_iff, wrapped_kinds hk hp k', decide_eq_true_iff]
  unfold scalingKind
  simp only [List.find?_cons, h, TendencyLike]
  cases k <;> simp

/-- **C74.**  A TimeDifferencingWrapper is an ImplicitTendencyComponent and nothing
else, whatever it wraps, and has the interface of one. -/
theorem time_differencing_kind (o : Obj) (k : Kind) :
    (isInstance k (differencingObj o) = true ↔ k = .implicit) ∧ Interface .implicit (differencingObj o) ∧
    scalingKind (differencingObj o) = some .implicit := by
  have h : ∀ k, isInstance k (differencingObj o) = decide (k = .implicit) := by
    intro k
    rw [Bool.eq_iff_iff, inheriting_kind _ (by simp [differencingObj])]
    simp [differencingObj]
  refine ⟨by rw [h k, decide_eq_true_iff], ?_, ?_⟩
  · unfold Interface Obj.has differencingObj requiredAttributes
    simp [checkAttributes, classAttrs]
  · unfold scalingKind
    simp [h]

/-! ## Nested ScalingWrappers -/

section
variable {σ : Type}

theorem nestedObj_wrapOf (o : Obj) (w : Scaling) (ws : List Scaling) : WrapOf o (nestedObj o (w :: ws)) := by
  induction ws generalizing w with
  | nil => exact .scaling
  | cons w' ws ih => exact .scalingMore (ih w')

/-- What the component was given when a call returned. -/
theorem scaling_call_inner (w : Scaling) (o : Obj) (inKeys : List String) (comp : WComp σ) (m : WMem σ)
    (state : RState) (hs : Valid m state) (dt : Option Int) {r : RState × RState}
    (h : (w.call o inKeys comp m state dt).2 = .ok r) :
    ∃ m1 s1 dt', Keeps m m1 ∧ Valid m1 s1 ∧ (comp m1 s1 dt').2 = .ok r := by
  have htv : Valid m (timeOf state) := by
    unfold timeOf
    intro kv hkv l hl
    cases ht : Dict.get? state "time" with
    | none => rw [ht] at hkv; cases hkv
    | some v =>
      rw [ht] at hkv
      simp only [List.mem_singleton] at hkv
      subst hkv
      dsimp only at hl
      subst hl
      exact hs.get ht
  obtain ⟨i1, -, -, i4⟩ := scaleInputs_refines w.input state inKeys m (timeOf state) hs htv
  rcases hi : scaleInputs w.input state inKeys m (timeOf state) with ⟨m1, r1⟩
  rw [hi] at i1 i4
  cases r1 with
  | error e => unfold Scaling.call at h; rw [hi] at h; cases h
  | ok s1 =>
    obtain ⟨i5, -⟩ := i4 s1 rfl
    cases hk : scalingKind o with
    | none =>
      unfold scalingKind at hk
      simp only [List.find?_eq_none, List.mem_cons, List.not_mem_nil, or_false, forall_eq_or_imp,
        forall_eq, Bool.not_eq_true] at hk
      unfold Scaling.call at h
      rw [hi] at h
      simp only [hk.1, hk.2.1, hk.2.2.1, hk.2.2.2, Bool.false_eq_true, if_false] at h
      cases h
    | some k =>
      rw [scaling_call_eq w o inKeys comp m state dt hi hk] at h
      by_cases hdt : takesTimestep k ∧ dt = none
      · rw [if_pos hdt] at h; cases h
      · rw [if_neg hdt] at h
        refine ⟨m1, s1, if takesTimestep k then dt else none, i1.keeps, i5, ?_⟩
        rcases hc : comp m1 s1 (if takesTimestep k then dt else none) with ⟨m2, r2⟩
        rw [hc] at h
        cases r2 with
        | error e => cases h
        | ok r0 =>
          dsimp only at h
          have key : ∀ (f1 f2 : Dict Rat) (d1 d2 : RState), (scaleBoth f1 f2 d1 d2 m2 r0).2 = .ok r → r = r0 := by
            intro f1 f2 d1 d2 h
            exact (scaleBoth_ok (m' := (scaleBoth f1 f2 d1 d2 m2 r0).1) (Prod.ext rfl h)).1
          split at h
          · rw [key _ _ _ _ h]
          · split at h
            · rw [key _ _ _ _ h]
            · rw [key _ _ _ _ h]

/-- A ScalingWrapper around a component that returns the same result each time does so
too. -/
theorem scaling_returnsSame (w : Scaling) (o : Obj) (inKeys : List String) {comp : WComp σ}
    {F : State → Option Int → Except Err (State × State)} (hF : ReturnsSame comp F) :
    ReturnsSame (fun m s dt => w.call o inKeys comp m s dt) (fun S dt => w.callV o inKeys F S dt) := by
  intro m s dt hs
  obtain ⟨a1, a2, a3⟩ := scaling_call_refines w o inKeys hF m s hs dt
  refine ⟨a1, a2, fun r hr => ?_⟩
  obtain ⟨b1, b2⟩ := a3 r hr
  obtain ⟨m1, s1, dt', c1, c2, c3⟩ := scaling_call_inner w o inKeys comp m s hs dt hr
  obtain ⟨-, -, d3⟩ := hF m1 s1 dt' c2
  obtain ⟨-, e1, -, e2, e3, e4⟩ := d3 r c3
  exact ⟨b2, e1, b1, e2, e3, fun kv hkv l hl => Nat.le_trans c1.1 (e4 kv hkv l hl)⟩

/-- The nested call, on values. -/
def nestedV (o : Obj) (inKeys : List String) (F : State → Option Int → Except Err (State × State)) :
    List Scaling → State → Option Int → Except Err (State × State)
  | [] => F
  | w :: ws => fun S dt => w.callV (nestedObj o ws) inKeys (nestedV o inKeys F ws) S dt

theorem nested_returnsSame (o : Obj) (inKeys : List String) {comp : WComp σ}
    {F : State → Option Int → Except Err (State × State)} (hF : ReturnsSame comp F) (ws : List Scaling) :
    ReturnsSame (nestedCall o inKeys comp ws) (nestedV o inKeys F ws) := by
  induction ws with
  | nil => exact hF
  | cons w ws ih => exact scaling_returnsSame w (nestedObj o ws) inKeys ih

theorem scaledDict_scaledBy {f : Dict Rat} {d d' : State} (h : ScaledDict f d d') : ScaledBy f.get? d d' :=
  ⟨h.1, h.2.2⟩

/-- What one wrapper does, on values. -/
theorem callV_ok (w : Scaling) (hw : w.Dicts) (o : Obj) (inKeys : List String)
    {F : State → Option Int → Except Err (State × State)} {S : State} {dt : Option Int} {V : State × State}
    {k : Kind} (hk : scalingKind o = some k) (h : w.callV o inKeys F S dt = .ok V) :
    ∃ s1 V0, F s1 (if takesTimestep k then dt else none) = .ok V0 ∧ (takesTimestep k → dt ≠ none) ∧
      (∀ q, q ∈ Dict.keys s1 ↔ q ∈ inKeys ∨ q = "time" ∧ q ∈ Dict.keys S) ∧
      (∀ q ∈ inKeys, ∃ x y, Dict.get? S q = some x ∧ Dict.get? s1 q = some y ∧
        ScaledEntry (w.input.get? q) x y) ∧
      ("time" ∉ inKeys → Dict.get? s1 "time" = Dict.get? S "time") ∧
      ScaledBy (w.factors k).1.get? V0.1 V.1 ∧ ScaledBy (w.factors k).2.get? V0.2 V.2 := by
  unfold Scaling.callV at h
  obtain ⟨s1, hs1, h⟩ := Exc.bind_ok_iff.1 h
  rw [hk] at h
  dsimp only at h
  by_cases hdt : takesTimestep k ∧ dt = none
  · rw [if_pos hdt] at h; cases h
  rw [if_neg hdt] at h
  obtain ⟨V0, hV0, h⟩ := Exc.bind_ok_iff.1 h
  obtain ⟨i1, i2, i3⟩ := scaleInputsV_spec _ _ _ _ _ hs1
  obtain ⟨-, w2, w3, w4⟩ := hw
  have both : ∀ {f1 f2 : Dict Rat} {d1 d2 : State} {p : State × State}, f1.keys.Nodup → f2.keys.Nodup →
      scaleBothV f1 f2 d1 d2 = .ok p → ScaledBy f1.get? d1 p.1 ∧ ScaledBy f2.get? d2 p.2 := by
    intro f1 f2 d1 d2 p n1 n2 hp
    unfold scaleBothV at hp
    obtain ⟨a, ha, hp⟩ := Exc.bind_ok_iff.1 hp
    obtain ⟨b, hb, hp⟩ := Exc.bind_ok_iff.1 hp
    injection hp with hp
    subst hp
    exact ⟨scaledDict_scaledBy (scaleOutputsV_spec f1 n1 _ _ ha),
      scaledDict_scaledBy (scaleOutputsV_spec f2 n2 _ _ hb)⟩
  refine ⟨s1, V0, hV0, fun ht hd => hdt ⟨ht, hd⟩, ?_, i2, ?_, ?_⟩
  · intro q
    rw [i1 q]
    refine or_congr Iff.rfl ?_
    cases ht : Dict.get? S "time" with
    | none =>
      simp only [Dict.keys, List.map_nil, List.not_mem_nil, false_iff, not_and]
      rintro rfl
      exact (Dict.get?_eq_none_iff _ _).1 ht
    | some v =>
      simp only [Dict.keys, List.map_cons, List.map_nil, List.mem_singleton]
      constructor
      · rintro rfl
        exact ⟨rfl, Dict.mem_keys_of_get? ht⟩
      · exact fun h => h.1
  · intro hn
    rw [i3 "time" hn]
    cases ht : Dict.get? S "time" with
    | none => rfl
    | some v => rfl
  · cases k with
    | stepper =>
      simp only [if_true] at h
      obtain ⟨p, hp, h⟩ := Exc.bind_ok_iff.1 h
      injection h with h
      subst h
      exact (both w3 w2 hp).symm
    | tendency => exact both w4 w2 h
    | implicit => exact both w4 w2 h
    | diagnostic =>
      simp only [reduceCtorEq, if_false, if_true] at h
      obtain ⟨p, hp, h⟩ := Exc.bind_ok_iff.1 h
      injection h with h
      subst h
      exact ⟨(both (f1 := []) List.nodup_nil w2 hp).2, rfl, fun q x hx => ⟨x, hx, rfl⟩⟩

theorem scaledEntry_trans {c : Option Rat} {l : List (Option Rat)} {x y z : Val} 
    (h : ScaledEntry c x y ∧ ScaledEntry (combinedFactor l) y z ∨
      ScaledEntry (combinedFactor l) x y ∧ ScaledEntry c y z) : ScaledEntry (combinedFactor (c :: l)) x z := by
  cases c with
  | none =>
    rcases h with ⟨h1, h2⟩ | ⟨h1, h2⟩
    · dsimp only [ScaledEntry] at h1; subst h1; exact h2
    · dsimp only [ScaledEntry] at h2; subst h2; exact h1
  | some c =>
    unfold combinedFactor
    cases hl : combinedFactor l with
    | none =>
      rw [hl] at h
      simp only [Option.getD_none, mul_one]
      rcases h with ⟨h1, h2⟩ | ⟨h1, h2⟩
      · dsimp only [ScaledEntry] at h2; subst h2; exact h1
      · dsimp only [ScaledEntry] at h1; subst h1; exact h2
    | some c' =>
      rw [hl] at h
      simp only [Option.getD_some]
      cases x with
      | time t => rcases h with ⟨h1, -⟩ | ⟨h1, -⟩ <;> exact h1.elim
      | da a =>
        cases y with
        | time t => rcases h with ⟨h1, -⟩ | ⟨h1, -⟩ <;> exact h1.elim
        | da b =>
          cases z with
          | time t => rcases h with ⟨-, h1⟩ | ⟨-, h1⟩ <;> exact h1.elim
          | da e =>
            rcases h with ⟨⟨a1, a2, a3, a4⟩, b1, b2, b3, b4⟩ | ⟨⟨a1, a2, a3, a4⟩, b1, b2, b3, b4⟩
            · exact ⟨b1.trans a1, b2.trans a2, b3.trans a3, fun idx => by rw [b4, a4]; ring⟩
            · exact ⟨b1.trans a1, b2.trans a2, b3.trans a3, fun idx => by rw [b4, a4]; ring⟩

theorem combinedFactor_single (c : Option Rat) : combinedFactor [c] = c := by
  cases c <;> simp [combinedFactor]

theorem nestedV_ok (o : Obj) (inKeys : List String) {F : State → Option Int → Except Err (State × State)}
    {k : Kind} (hk : scalingKind o = some k) (hi : Interface k o) (w : Scaling) (ws : List Scaling)
    (hki : k ≠ .implicit ∨ ws = []) (hw : ∀ w' ∈ w :: ws, w'.Dicts) {S : State} {dt : Option Int} {V : State × State}
    (h : nestedV o inKeys F (w :: ws) S dt = .ok V) :
    ∃ s1 V0, F s1 (if takesTimestep k then dt else none) = .ok V0 ∧ (takesTimestep k → dt ≠ none) ∧
      (∀ q, q ∈ Dict.keys s1 ↔ q ∈ inKeys ∨ q = "time" ∧ q ∈ Dict.keys S) ∧
      (∀ q ∈ inKeys, ∃ x y, Dict.get? S q = some x ∧ Dict.get? s1 q = some y ∧
        ScaledEntry (combinedFactor ((w :: ws).map (·.input.get? q))) x y) ∧
      ("time" ∉ inKeys → Dict.get? s1 "time" = Dict.get? S "time") ∧
      ScaledBy (fun q => combinedFactor ((w :: ws).map fun w => (w.factors k).1.get? q)) V0.1 V.1 ∧
      ScaledBy (fun q => combinedFactor ((w :: ws).map fun w => (w.factors k).2.get? q)) V0.2 V.2 := by
  induction ws generalizing w S dt V with
  | nil =>
    simp only [List.map_cons, List.map_nil, combinedFactor_single]
    exact callV_ok w (hw w (by simp)) o inKeys hk h
  | cons w2 ws ih =>
    have hki' : k ≠ .implicit := by
      rcases hki with h | h
      · exact h
      · cases h
    have hk2 : scalingKind (nestedObj o (w2 :: ws)) = some k := by
      rw [wrapped_scalingKind hi (nestedObj_wrapOf o w2 ws), if_neg hki']
    obtain ⟨s1, V1, a1, a2, a3, a4, a5, a6, a7⟩ := callV_ok w (hw w (by simp)) _ inKeys hk2 h
    obtain ⟨s2, V2, b1, b2, b3, b4, b5, b6, b7⟩ := ih w2 (.inl hki') (fun w' hw' => hw w' (by simp [hw'])) a1
    refine ⟨s2, V2, ?_, a2, ?_, ?_, ?_, ?_, ?_⟩
    · rw [← b1]
      by_cases ht : takesTimestep k <;> simp [ht]
    · intro q
      rw [b3 q, a3 q]
      tauto
    · intro q hq
      obtain ⟨x, y, h1, h2, h3⟩ := a4 q hq
      obtain ⟨y', z, h4, h5, h6⟩ := b4 q hq
      rw [h2] at h4
      injection h4 with h4
      subst h4
      exact ⟨x, z, h1, h5, scaledEntry_trans (.inl ⟨h3, h6⟩)⟩
    · intro hn
      rw [b5 hn, a5 hn]
    · refine ⟨a6.1.trans b6.1, fun q x hx => ?_⟩
      obtain ⟨y, h1, h2⟩ := b6.2 q x hx
      obtain ⟨z, h3, h4⟩ := a6.2 q y h1
      exact ⟨z, h3, scaledEntry_trans (.inr ⟨h2, h4⟩)⟩
    · refine ⟨a7.1.trans b7.1, fun q x hx => ?_⟩
      obtain ⟨y, h1, h2⟩ := b7.2 q x hx
      obtain ⟨z, h3, h4⟩ := a7.2 q y h1
      exact ⟨z, h3, scaledEntry_trans (.inr ⟨h2, h4⟩)⟩

/-- **C74, partial.**  ScalingWrappers around ScalingWrappers, to any depth, around a
component that returns new arrays: the component is called once, with the timestep if
it takes one, on its inputs, each multiplied by the product of the factors given for it
by any of the wrappers; and its outputs are returned multiplied likewise; the state is
unchanged.  Missing from the full claim: ImplicitTendencyComponents in more than one
ScalingWrapper (`nested_implicit_raises`). -/
theorem nested_scaling_partial (o : Obj) (inKeys : List String) {comp : WComp σ}
    {F : State → Option Int → Except Err (State × State)} (hF : ReturnsSame comp F)
    {k : Kind} (hk : scalingKind o = some k) (hi : Interface k o) (w : Scaling) (ws : List Scaling)
    (hki : k ≠ .implicit ∨ ws = []) (hw : ∀ w' ∈ w :: ws, w'.Dicts) (m : WMem σ) (state : RState)
    (hs : Valid m state) (dt : Option Int) {m' : WMem σ} {r : RState × RState}
    (h : nestedCall o inKeys comp (w :: ws) m state dt = (m', .ok r)) :
    m'.vals state = m.vals state ∧
    ∃ s1 V, F s1 (if takesTimestep k then dt else none) = .ok V ∧ (takesTimestep k → dt ≠ none) ∧
      (∀ q, q ∈ Dict.keys s1 ↔ q ∈ inKeys ∨ q = "time" ∧ q ∈ Dict.keys (m.vals state)) ∧
      (∀ q ∈ inKeys, ∃ x y, Dict.get? (m.vals state) q = some x ∧ Dict.get? s1 q = some y ∧
        ScaledEntry (combinedFactor ((w :: ws).map (·.input.get? q))) x y) ∧
      ("time" ∉ inKeys → Dict.get? s1 "time" = Dict.get? (m.vals state) "time") ∧
      ScaledBy (fun q => combinedFactor ((w :: ws).map fun w => (w.factors k).1.get? q)) V.1 (m'.vals r.1) ∧
      ScaledBy (fun q => combinedFactor ((w :: ws).map fun w => (w.factors k).2.get? q)) V.2 (m'.vals r.2) := by
  obtain ⟨a1, -, a3⟩ := nested_returnsSame o inKeys hF (w :: ws) m state dt hs
  rw [h] at a1 a3
  obtain ⟨b1, -⟩ := a3 r rfl
  exact ⟨a1.vals hs, nestedV_ok o inKeys hk hi w ws hki hw b1⟩

theorem scaleInputs_world (f : Dict Rat) (state : RState) (ks : List String) (m : WMem σ) (out : RState) :
    (scaleInputs f state ks m out).1.world = m.world := by
  induction ks generalizing m out with
  | nil => rfl
  | cons k ks ih =>
    unfold scaleInputs
    cases Dict.get? state k with
    | none => rfl
    | some v =>
      dsimp only
      cases f.get? k with
      | none => exact ih m _
      | some c =>
        cases v with
        | time t => rfl
        | ref l => exact ih (m.alloc ((m.at' l).scaled c)).1 _

/-- A ScalingWrapper that gives its component no timestep raises, and leaves the world
alone, if the component does. -/
theorem scaling_call_fails (w : Scaling) (o : Obj) (inKeys : List String) (comp : WComp σ) (m : WMem σ)
    (state : RState) (dt : Option Int) {k : Kind} (hk : scalingKind o = some k)
    (hdt : takesTimestep k = true → dt = none)
    (hc : takesTimestep k = false → ∀ m s, (comp m s none).1.world = m.world ∧ ∃ e, (comp m s none).2 = .error e) :
    (w.call o inKeys comp m state dt).1.world = m.world ∧ ∃ e, (w.call o inKeys comp m state dt).2 = .error e := by
  have hw := scaleInputs_world w.input state inKeys m (timeOf state)
  rcases hi : scaleInputs w.input state inKeys m (timeOf state) with ⟨m1, r1⟩
  rw [hi] at hw
  cases r1 with
  | error e =>
    unfold Scaling.call
    rw [hi]
    exact ⟨hw, e, rfl⟩
  | ok s1 =>
    rw [scaling_call_eq w o inKeys comp m state dt hi hk]
    cases ht : takesTimestep k with
    | true =>
      rw [if_pos ⟨rfl, hdt ht⟩]
      exact ⟨hw, _, rfl⟩
    | false =>
      simp only [Bool.false_eq_true, false_and, if_false]
      obtain ⟨c1, e, c2⟩ := hc ht m1 s1
      rcases hcc : comp m1 s1 none with ⟨m2, r2⟩
      rw [hcc] at c1 c2
      dsimp only at c1 c2
      subst c2
      exact ⟨c1.trans hw, e, rfl⟩

/-- **C74, counterexample.**  An ImplicitTendencyComponent in more than one
ScalingWrapper cannot be used: every call raises, also with a timestep, and the
component is not run.  (The inner wrapper is an instance of TendencyComponent, so the
outer one calls it without the timestep.) -/
theorem nested_implicit_raises (o : Obj) (inKeys : List String) (comp : WComp σ)
    (hk : scalingKind o = some .implicit) (hi : Interface .implicit o) (w1 w2 : Scaling) (ws : List Scaling)
    (m : WMem σ) (state : RState) (dt : Option Int) :
    (nestedCall o inKeys comp (w1 :: w2 :: ws) m state dt).1.world = m.world ∧
    ∃ e, (nestedCall o inKeys comp (w1 :: w2 :: ws) m state dt).2 = .error e := by
  have none' : ∀ (ws : List Scaling) (w : Scaling) (m : WMem σ) (s : RState),
      (nestedCall o inKeys comp (w :: ws) m s none).1.world = m.world ∧
      ∃ e, (nestedCall o inKeys comp (w :: ws) m s none).2 = .error e := by
    intro ws
    induction ws with
    | nil =>
      intro w m s
      exact scaling_call_fails w o inKeys comp m s none hk (fun _ => rfl) (fun h => (by cases h))
    | cons w' ws ih =>
      intro w m s
      exact scaling_call_fails w _ inKeys _ m s none (k := .tendency)
        (by rw [wrapped_scalingKind hi (nestedObj_wrapOf o w' ws), if_pos rfl]) (fun _ => rfl) (fun _ => ih w')
  exact scaling_call_fails w1 _ inKeys _ m state dt (k := .tendency)
    (by rw [wrapped_scalingKind hi (nestedObj_wrapOf o w2 ws), if_pos rfl]) (fun h => (by cases h)) (fun _ => none' ws w2)

/-- **C74, counterexample.**  The same with an UpdateFrequencyWrapper in between that
has no output yet. -/
theorem scaling_update_implicit_raises {τ : Type} (o : Obj) (inKeys : List String) (inner : WComp τ)
    (hi : Interface .implicit o) (hneeds : ∀ m s, ∃ e, (inner m s none).2 = .error e)
    (w : Scaling) (m : WMem (τ × UFW (RState × RState))) (hm : m.world.2.last = none) (state : RState)
    (dt : Option Int) :
    ∃ e, (w.call (updateObj o) inKeys (UFW.comp inner) m state dt).2 = .error e := by
  have hk : scalingKind (updateObj o) = some .tendency := by
    rw [wrapped_scalingKind hi .update, if_pos rfl]
  have hw := scaleInputs_world w.input state inKeys m (timeOf state)
  rcases hi : scaleInputs w.input state inKeys m (timeOf state) with ⟨m1, r1⟩
  rw [hi] at hw
  dsimp only at hw
  cases r1 with
  | error e =>
    unfold Scaling.call
    rw [hi]
    exact ⟨e, rfl⟩
  | ok s1 =>
    rw [scaling_call_eq w _ inKeys _ m state dt hi hk]
    simp only [takesTimestep, Bool.false_eq_true, false_and, if_false]
    have : ∃ e, (UFW.comp inner m1 s1 none).2 = .error e := by
      unfold UFW.comp UFW.call
      rw [hw, hm]
      dsimp only
      unfold UFW.refresh runComponent
      obtain ⟨e, he⟩ := hneeds ⟨m.world.1, m1.arrays⟩ s1
      rcases hc : inner ⟨m.world.1, m1.arrays⟩ s1 none with ⟨m2, r2⟩
      rw [hc] at he
      dsimp only at he
      subst he
      simp only [hc]
      exact ⟨e, rfl⟩
    obtain ⟨e, he⟩ := this
    rcases hc : UFW.comp inner m1 s1 none with ⟨m2, r2⟩
    rw [hc] at he
    dsimp only at he
    subst he
    exact ⟨e, rfl⟩

/-- **C74.**  A ScalingWrapper around a component that takes no timestep discards the
timestep. -/
theorem scaling_discards_timestep (w : Scaling) (o : Obj) (inKeys : List String) (comp : WComp σ) (m : WMem σ)
    (state : RState) (dt : Option Int) {k : Kind} (hk : scalingKind o = some k) (ht : takesTimestep k = false) :
    w.call o inKeys comp m state dt = w.call o inKeys comp m state none := by
  rcases hi : scaleInputs w.input state inKeys m (timeOf state) with ⟨m1, r1⟩
  cases r1 with
  | error e => unfold Scaling.call; rw [hi]
  | ok s1 =>
    rw [scaling_call_eq w o inKeys comp m state dt hi hk, scaling_call_eq w o inKeys comp m state none hi hk]
    simp only [ht, Bool.false_eq_true, false_and, if_false]

/-! ## Wrapped components in composites -/

/-- **C74, composites.**  ImplicitTendencyComponentComposite accepts wrapped components
of both tendency kinds and calls them with the timestep; DiagnosticComponentComposite
accepts exactly the wrapped DiagnosticComponents. -/
theorem wrapped_in_composites {o p : Obj} {k : Kind} (hk : Interface k o) (hp : WrapOf o p) :
    (acceptedBy .implicit p = true ↔ TendencyLike k) ∧ (acceptedBy .diagnostic p = true ↔ k = .diagnostic) ∧
    (TendencyLike k → ∀ (c : Comp σ) (state : State) (dt : Int) (s : σ), c.obj = p →
      implicitCall c state dt s = c.callI s state dt) := by
  refine ⟨?_, ?_, ?_⟩
  · unfold acceptedBy
    simp only [Bool.or_eq_true]
    rw [wrapped_kinds hk hp, wrapped_kinds hk hp]
    unfold TendencyLike
    cases k <;> simp
  · unfold acceptedBy
    dsimp only
    rw [wrapped_kinds hk hp]
    unfold TendencyLike
    cases k <;> simp
  · intro ht c state dt s hc
    unfold implicitCall
    rw [hc, if_pos ((wrapped_kinds hk hp .implicit).2 (.inr ⟨ht, .inr rfl⟩))]

/-- **C74, counterexample.**  TendencyComponentComposite accepts a wrapped
ImplicitTendencyComponent, although it rejects the component itself, and then every
call raises. -/
theorem tendency_composite_accepts_implicit (R : Registry) {o p : Obj} (hk : Interface .implicit o)
    (ho : o.bases = [.implicit]) (hp : WrapOf o p) (before after : List (Comp σ)) (c : Comp σ) (hc : c.obj = p)
    (hneeds : ∀ s state, ∃ e, (c.callT s state).2 = .error e) :
    acceptedBy .tendency o = false ∧ acceptedBy .tendency c.obj = true ∧
    ∀ s state, ∃ e, (callTendencyComposite R (before ++ c :: after) s state).2 = .error e := by
  refine ⟨?_, ?_, ?_⟩
  · unfold acceptedBy
    dsimp only
    rw [Bool.eq_false_iff, Ne, inheriting_kind o (by rw [ho]; simp), ho]
    decide
  · rw [hc]
    exact (wrapped_kinds hk hp .tendency).2 (.inr ⟨.inr rfl, .inl rfl⟩)
  · intro s state
    have main : ∀ (l : List (σ → σ × Except Err TendOut)) (f : σ → σ × Except Err TendOut)
        (l' : List (σ → σ × Except Err TendOut)) (s : σ) (t d : Dict DataArray),
        (∀ s, ∃ e, (f s).2 = .error e) → ∃ e, (compositeLoop R (l ++ f :: l') s t d).2 = .error e := by
      intro l f l'
      induction l with
      | nil =>
        intro s t d hf
        obtain ⟨e, he⟩ := hf s
        simp only [List.nil_append]
        unfold compositeLoop
        rw [he]
        exact ⟨e, rfl⟩
      | cons g l ih =>
        intro s t d hf
        simp only [List.cons_append]
        unfold compositeLoop
        cases (g s).2 with
        | error e => exact ⟨e, rfl⟩
        | ok r =>
          dsimp only
          cases addInto R r.1 t with
          | error e => exact ⟨e, rfl⟩
          | ok t' => exact ih _ _ _ hf
    unfold callTendencyComposite
    rw [List.map_append, List.map_cons]
    exact main _ _ _ s [] [] (fun s => hneeds s state)

end

/-! ## Examples -/

namespace Demo

/-- An ImplicitTendencyComponent and a DiagnosticComponent as `isinstance` sees them. -/
def scImplicit : Obj := ⟨requiredAttributes .implicit, [.implicit], some ⟨["self", "state", "timestep"], []⟩⟩
def scDiagnostic : Obj := ⟨requiredAttributes .diagnostic, [.diagnostic], some ⟨["self", "state"], []⟩⟩

end Demo

open Demo in
/-- The hypotheses of the theorems hold of all four kinds. -/
example : Interface .stepper scStepper ∧ Interface .tendency scTendency ∧ Interface .implicit scImplicit ∧
    Interface .diagnostic scDiagnostic ∧ scalingKind scImplicit = some .implicit ∧
    scalingKind scDiagnostic = some .diagnostic ∧
    scalingKind (scalingObj (updateObj scStepper)) = some .stepper ∧
    scalingKind (scalingObj scImplicit) = some .tendency ∧
    scalingKind (scalingObj (differencingObj scStepper)) = some .tendency := by
  refine ⟨?_, ?_, ?_, ?_, by decide +kernel, by decide +kernel, by decide +kernel, by decide +kernel, by decide +kernel⟩ <;>
    simp [Interface, Obj.has, scStepper, scTendency, scImplicit, scDiagnostic, requiredAttributes, checkAttributes,
      classAttrs]

open Demo in
/-- Inputs times 2 and 5, tendency times 3 and 7: `q = [1, 2]` gives the tendency
`[2100, 4200]` and the diagnostic `[10, 20]`. -/
example : (match nestedCall scTendency ["q"] scComp [scW, { input := [("q", 5)], tendency := [("q", 7)] }] scMem scState none with
    | (m', .ok ([("q", .ref i)], [("d", .ref j)])) =>
      scVals m' i == [2100, 4200] && scVals m' j == [10, 20] && scVals m' 0 == [1, 2]
    | _ => false) = true := by decide +kernel

open Demo in
/-- One ScalingWrapper around an ImplicitTendencyComponent works, two raise
TypeError. -/
example : (match nestedCall scImplicit ["q"] scComp [scW] scMem scState (some 1) with
    | (_, .ok _) => true | _ => false) = true ∧
    (match nestedCall scImplicit ["q"] scComp [scW, {}] scMem scState (some 1) with
    | (_, .error .typeError) => true | _ => false) = true := by
  constructor <;> decide +kernel

open Demo in
/-- The composite with a wrapped ImplicitTendencyComponent that raises TypeError when
called without a timestep. -/
example : ∀ s state, ∃ e, (callTendencyComposite Demo.reg
    [{ cls := { kind := .implicit, inProps := [], outProps := [], diagProps := [] }, obj := scalingObj scImplicit,
       callT := fun (s : Unit) _ => (s, .error .typeError),
       callI := fun s _ _ => (s, .ok ([], [])) : Comp Unit }] s state).2 = .error e :=
  (tendency_composite_accepts_implicit Demo.reg (o := scImplicit) (p := scalingObj scImplicit)
    (by simp [Interface, Obj.has, scImplicit, requiredAttributes, checkAttributes, classAttrs])
    rfl .scaling [] [] _ rfl (fun _ _ => ⟨_, rfl⟩)).2.2

end Verif
