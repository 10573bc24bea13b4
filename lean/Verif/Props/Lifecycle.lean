import Verif.Model.Lifecycle
import Verif.Lemmas.Components
import Verif.Props.Composite
/-!
# C81: components that have not been initialised
-/

namespace Verif

/-- What can have happened to an object of a base class `k` (with or without tracers):
any number of calls of the base class's `__init__`, with any arguments, declared
properties and tracers, those that raised having been caught.  The Boolean says
whether any of them completed. -/
inductive Lived (k : Kind) (tr : Bool) : Bool → SelfAttrs → Prop
  | new : Lived k tr false {}
  | init {b : Bool} {x : SelfAttrs} (h : Lived k tr b x) (R : Registry) (g : Tracers) (c : Class) (tid : Bool)
      (name : String) (hk : c.kind = k) (ht : c.usesTracers = tr) (g' : Tracers) (c' : Class) (x' : SelfAttrs)
      (r : Except Err Unit) (hi : initSelf R g c tid name x = (g', c', x', r)) :
      Lived k tr (b || r.toBool) x'

theorem makeCheckers_spec {R : Registry} {c : Class} {ks : List Checker} {x x' : SelfAttrs} {r : Except Err Unit}
    (h : makeCheckers R c ks x = (x', r)) :
    x'.initialized = x.initialized ∧ x'.packer = x.packer ∧ x'.tid = x.tid ∧ x'.name = x.name ∧
    (x.inputC = true → x'.inputC = true) ∧ (x.outC = true → x'.outC = true) ∧
    (x.diagC.isSome → x'.diagC.isSome) ∧
    (r = .ok () → (Checker.input ∈ ks → x'.inputC = true) ∧ (Checker.out ∈ ks → x'.outC = true) ∧
      (Checker.diag ∈ ks → x'.diagC = some []) ∧ (Checker.diag ∉ ks → x'.diagC = x.diagC)) := by
  induction ks generalizing x with
  | nil =>
    unfold makeCheckers at h
    cases h
    exact ⟨rfl, rfl, rfl, rfl, id, id, id, fun _ => ⟨nofun, nofun, nofun, fun _ => rfl⟩⟩
  | cons k ks ih =>
    unfold makeCheckers at h
    cases hk : k.make R c with
    | error e =>
      rw [hk] at h
      cases h
      exact ⟨rfl, rfl, rfl, rfl, id, id, id, nofun⟩
    | ok u =>
      rw [hk] at h
      obtain ⟨i1, i2, i3, i4, i5, i6, i7, i8⟩ := ih h
      by_cases hd : Checker.diag ∈ ks
      all_goals
        cases k
        all_goals
          simp only [Checker.put] at i1 i2 i3 i4 i5 i6 i7 i8
          refine ⟨i1, i2, i3, i4, ?_, ?_, ?_, fun hr => ?_⟩
          all_goals first
            | exact i5
            | exact fun _ => i5 trivial
            | exact i6
            | exact fun _ => i6 trivial
            | exact i7
            | exact fun _ => i7 rfl
            | (obtain ⟨j1, j2, j3, j4⟩ := i8 hr
               simp only [List.mem_cons, reduceCtorEq, false_or, true_or, forall_const]
               simp_all)

/-- The attributes needed after initialisation. -/
structure Furnished (k : Kind) (x : SelfAttrs) : Prop where
  inputC : x.inputC = true
  diagC : x.diagC.isSome
  others : k ≠ .diagnostic → x.tid.isSome ∧ x.name.isSome ∧ x.outC = true

theorem finishInit_spec {g g' : Tracers} {c : Class} {x x' : SelfAttrs} {r : Except Err Unit}
    (h : finishInit g c x = (g', x', r)) :
    x'.inputC = x.inputC ∧ x'.diagC = x.diagC ∧ x'.tid = x.tid ∧ x'.name = x.name ∧ x'.outC = x.outC ∧
    (x.initialized = true → x'.initialized = true) ∧
    (∀ e, r = .error e → x'.packer = x.packer ∧ c.usesTracers = true ∧
      (c.kind ≠ .stepper → x'.initialized = x.initialized)) ∧
    (r = .ok () → x'.initialized = true ∧
      (makePacker g c).2 = .ok (if c.kind ≠ .diagnostic ∧ c.usesTracers then x'.packer else none) ∧
      (c.kind ≠ .diagnostic → c.usesTracers = true → x'.packer.isSome)) := by
  unfold finishInit at h
  dsimp only at h
  have hx1 : ∀ y, y = (if c.kind = .stepper then { x with initialized := true } else x) →
      y.inputC = x.inputC ∧ y.diagC = x.diagC ∧ y.tid = x.tid ∧ y.name = x.name ∧ y.outC = x.outC ∧
      (x.initialized = true → y.initialized = true) ∧ y.packer = x.packer ∧ (c.kind ≠ .stepper → y.initialized = x.initialized) := by
    rintro y rfl
    by_cases hk : c.kind = .stepper
    · rw [if_pos hk]; exact ⟨rfl, rfl, rfl, rfl, rfl, fun _ => rfl, rfl, fun h => absurd hk h⟩
    · rw [if_neg hk]; exact ⟨rfl, rfl, rfl, rfl, rfl, id, rfl, fun _ => rfl⟩
  generalize (if c.kind = .stepper then { x with initialized := true } else x) = y at h hx1
  obtain ⟨y1, y2, y3, y4, y5, y0, y6, y7⟩ := hx1 y rfl
  cases hp : (makePacker g c).2 with
  | error e =>
    rw [hp] at h
    cases h
    refine ⟨y1, y2, y3, y4, y5, y0, fun e _ => ⟨y6, ?_, y7⟩, nofun⟩
    by_contra hu
    unfold makePacker at hp
    rw [if_neg (fun h => hu h.2)] at hp
    cases hp
  | ok o =>
    rw [hp] at h
    have hcase : (c.kind ≠ .diagnostic ∧ c.usesTracers = true → o.isSome) ∧
        (¬ (c.kind ≠ .diagnostic ∧ c.usesTracers = true) → o = none) := by
      unfold makePacker at hp
      by_cases hu : c.kind ≠ .diagnostic ∧ c.usesTracers = true
      · rw [if_pos hu] at hp
        refine ⟨fun _ => ?_, fun h => absurd hu h⟩
        cases htd : c.tracerDims with
        | none => rw [htd] at hp; cases hp
        | some td =>
          rw [htd] at hp
          obtain ⟨p, _, h2⟩ := Exc.bind_ok_iff.1 hp
          cases h2
          rfl
      · rw [if_neg hu] at hp
        cases hp
        exact ⟨fun h => absurd h hu, fun _ => rfl⟩
    cases o with
    | none =>
      cases h
      refine ⟨y1, y2, y3, y4, y5, fun _ => rfl, nofun, fun _ => ⟨rfl, ?_, ?_⟩⟩
      · rw [if_neg]
        intro hu
        cases hcase.1 hu
      · intro h1 h2
        cases hcase.1 ⟨h1, h2⟩
    | some p =>
      cases h
      refine ⟨y1, y2, y3, y4, y5, fun _ => rfl, nofun, fun _ => ⟨rfl, ?_, fun _ _ => rfl⟩⟩
      rw [if_pos]
      by_contra hu
      cases hcase.2 hu

/-- What one call of `__init__` does to the attributes. -/
structure InitEffect (c : Class) (x x' : SelfAttrs) (r : Except Err Unit) : Prop where
  keeps : Furnished c.kind x → Furnished c.kind x'
  stays : x.initialized = true → x'.initialized = true
  failed : ∀ e, r = .error e → x'.packer = x.packer ∧
    (¬ (c.kind = .stepper ∧ c.usesTracers = true) → x'.initialized = x.initialized)
  furnished : x'.initialized = true → x.initialized = true ∨ Furnished c.kind x'
  done : r = .ok () → x'.initialized = true ∧ Furnished c.kind x' ∧
    (c.kind ≠ .diagnostic → c.usesTracers = true → x'.packer.isSome)

theorem initSelf_spec {R : Registry} {g g' : Tracers} {c c' : Class} {tid : Bool} {name : String}
    {x x' : SelfAttrs} {r : Except Err Unit} (h : initSelf R g c tid name x = (g', c', x', r)) :
    InitEffect c x x' r := by
  unfold initSelf at h
  dsimp only at h
  have hx0 : ∀ y, y = (if c.kind = .diagnostic then x else { x with tid := some tid, name := some name }) →
      y.inputC = x.inputC ∧ y.diagC = x.diagC ∧ y.outC = x.outC ∧ y.packer = x.packer ∧
      y.initialized = x.initialized ∧ (c.kind ≠ .diagnostic → y.tid = some tid ∧ y.name = some name) := by
    rintro y rfl
    by_cases hk : c.kind = .diagnostic
    · rw [if_pos hk]; exact ⟨rfl, rfl, rfl, rfl, rfl, fun h => absurd hk h⟩
    · rw [if_neg hk]; exact ⟨rfl, rfl, rfl, rfl, rfl, fun _ => ⟨rfl, rfl⟩⟩
  generalize (if c.kind = .diagnostic then x else { x with tid := some tid, name := some name }) = y at h hx0
  obtain ⟨y1, y2, y3, y4, y5, y6⟩ := hx0 y rfl
  clear hx0
  rcases hz : makeCheckers R c (checkersOf c.kind) y with ⟨z, rz⟩
  rw [hz] at h
  obtain ⟨z1, z2, z3, z4, z5, z6, z7, z8⟩ := makeCheckers_spec hz
  have hFz : Furnished c.kind x → Furnished c.kind z := by
    intro hf
    refine ⟨z5 (y1.trans hf.inputC), z7 (by rw [y2]; exact hf.diagC), fun hk => ⟨?_, ?_, ?_⟩⟩
    · rw [z3, (y6 hk).1]; rfl
    · rw [z4, (y6 hk).2]; rfl
    · exact z6 (y3.trans (hf.others hk).2.2)
  cases rz with
  | error e =>
    cases h
    refine ⟨hFz, fun hi => ?_, fun e _ => ⟨?_, fun _ => ?_⟩, fun hi => ?_, nofun⟩
    · rw [z1, y5, hi]
    · rw [z2, y4]
    · rw [z1, y5]
    · rw [z1, y5] at hi; exact .inl hi
  | ok u =>
    obtain ⟨w1, w2, w3, _⟩ := z8 rfl
    have hF : Furnished c.kind z := by
      refine ⟨w1 ?_, ?_, fun hk => ⟨?_, ?_, w2 ?_⟩⟩
      · cases c.kind <;> simp [checkersOf]
      · rw [w3 (by cases c.kind <;> simp [checkersOf])]; rfl
      · rw [z3, (y6 hk).1]; rfl
      · rw [z4, (y6 hk).2]; rfl
      · cases hc : c.kind <;> simp_all [checkersOf]
    dsimp only at h
    -- the common end
    have hend : ∀ (cc : Class) (zz : SelfAttrs), cc.kind = c.kind → cc.usesTracers = c.usesTracers →
        Furnished c.kind zz → zz.packer = z.packer → zz.initialized = z.initialized →
        finishInit g cc zz = (g', x', r) → InitEffect c x x' r := by
      intro cc zz e1 e2 hf e3 e4 hfin
      obtain ⟨v1, v2, v3, v4, v5, v0, v6, v7⟩ := finishInit_spec hfin
      have hF' : Furnished c.kind x' := by
        refine ⟨v1.trans hf.inputC, by rw [v2]; exact hf.diagC, fun hk => ?_⟩
        rw [v3, v4, v5]
        exact hf.others hk
      rw [e1, e2] at v7
      rw [e1, e2] at v6
      exact ⟨fun _ => hF', fun hi => v0 (by rw [e4, z1, y5, hi]), fun e he => ⟨by rw [(v6 e he).1, e3, z2, y4],
        fun hk => by rw [(v6 e he).2.2 (fun h => hk ⟨h, (v6 e he).2.1⟩), e4, z1, y5]⟩, fun _ => .inr hF', fun hr => ⟨(v7 hr).1, hF', (v7 hr).2.2⟩⟩
    by_cases ht : tid = true ∧ c.kind ≠ .diagnostic
    · rw [if_pos ht] at h
      obtain ⟨k1, _, k2, _⟩ := insertProps_kind c name
      rcases hins : insertProps c name with ⟨ci, ri⟩
      rw [hins] at h k1 k2
      cases ri with
      | error e =>
        cases h
        refine ⟨hFz, fun hi => ?_, fun e _ => ⟨?_, fun _ => ?_⟩, fun hi => ?_, nofun⟩
        · rw [z1, y5, hi]
        · rw [z2, y4]
        · rw [z1, y5]
        · rw [z1, y5] at hi; exact .inl hi
      | ok added =>
        dsimp only at h
        rcases hfin : finishInit g ci { z with diagC := some added } with ⟨a, b⟩
        rw [hfin] at h
        cases h
        exact hend _ { z with diagC := some added } k1 k2 ⟨hF.inputC, rfl, hF.others⟩ rfl rfl hfin
    · rw [if_neg ht] at h
      rcases hfin : finishInit g c z with ⟨a, b⟩
      rw [hfin] at h
      cases h
      exact hend c _ rfl rfl hF rfl rfl hfin

theorem lived_spec {k : Kind} {tr b : Bool} {x : SelfAttrs} (h : Lived k tr b x) :
    (b = true → x.initialized = true) ∧ (x.initialized = true → b = true ∨ (k = .stepper ∧ tr = true)) ∧
    (x.initialized = true → Furnished k x) ∧ (b = false → x.packer = none) ∧
    (b = true → k ≠ .diagnostic → tr = true → x.packer.isSome) := by
  induction h with
  | new => exact ⟨nofun, nofun, nofun, fun _ => rfl, nofun⟩
  | @init b x _ R g c tid name hk ht g' c' x' r hi ih =>
    obtain ⟨i1, i2, i3, i4, i5⟩ := ih
    obtain ⟨e1, e2, e3, e4, e5⟩ := initSelf_spec hi
    rw [hk] at e1 e3 e4 e5
    rw [ht] at e3 e5
    have hF : x'.initialized = true → Furnished k x' := by
      intro h
      rcases e4 h with h | h
      · exact e1 (i3 h)
      · exact h
    cases r with
    | error e =>
      simp only [Except.toBool, Bool.or_false]
      refine ⟨fun hb => e2 (i1 hb), fun hi => ?_, hF, fun hb => ?_, fun hb h1 h2 => ?_⟩
      · by_cases hs : k = .stepper ∧ tr = true
        · exact .inr hs
        · rw [(e3 e rfl).2 hs] at hi
          exact i2 hi
      · rw [(e3 e rfl).1]; exact i4 hb
      · rw [(e3 e rfl).1]; exact i5 hb h1 h2
    | ok u =>
      obtain ⟨d1, d2, d3⟩ := e5 rfl
      simp only [Except.toBool, Bool.or_true]
      exact ⟨fun _ => d1, fun _ => .inl trivial, fun _ => d2, nofun, fun _ => d3⟩

/-- **C81.**  As long as no call of the base class's `__init__` has completed, calling a
component raises before `array_call` is run: its state and whatever it can change are
untouched, and the error does not depend on `array_call`.  Except for Steppers with
tracers it is RuntimeError, whatever the state holds. -/
theorem uninitialised_never_runs_partial {k : Kind} {tr : Bool} {x : SelfAttrs} (h : Lived k tr false x)
    (R : Registry) (g : Tracers) (c : Class) (hk : c.kind = k) (ht : c.usesTracers = tr) (state : State) :
    ∃ e, (¬ (k = .stepper ∧ tr = true) → e = .runtimeError) ∧
      ∀ {σ α β : Type} (arrayCall : σ → RawState → σ × Except Err α)
      (finish : Inst → RawState → α → Except Err β) (s : σ),
      callSelf R g c x arrayCall finish s state = (s, .error e) := by
  obtain ⟨_, i2, i3, i4, _⟩ := lived_spec h
  have : ∃ e, startCall R g c x state = .error e ∧ (¬ (k = .stepper ∧ tr = true) → e = .runtimeError) := by
    unfold startCall
    by_cases hi : x.initialized = true
    · have hs := (i2 hi).resolve_left nofun
      rw [if_neg (by simpa using hi), if_neg (by simp [(i3 hi).inputC]), i4 rfl]
      have hcond : c.kind ≠ .diagnostic ∧ c.usesTracers = true := ⟨by rw [hk, hs.1]; decide, by rw [ht, hs.2]⟩
      simp only [if_pos hcond]
      cases h1 : checkInputs c.inProps state with
      | error e => exact ⟨e, rfl, fun h => absurd hs h⟩
      | ok u =>
        cases h2 : getNumpyArrays R state c.inProps with
        | error e => exact ⟨e, rfl, fun h => absurd hs h⟩
        | ok raw => exact ⟨_, rfl, fun h => absurd hs h⟩
    · exact ⟨_, if_pos hi, fun _ => rfl⟩
  obtain ⟨e, he, hr⟩ := this
  refine ⟨e, hr, fun ac fin s => ?_⟩
  unfold callSelf
  rw [he]

/-- Once some `__init__` has completed, a component has every attribute its calls use,
whatever later calls of `__init__` did: for some name and settings, it behaves as the
instance described by them. -/
theorem initialised_has_attributes {k : Kind} {tr : Bool} {x : SelfAttrs} (h : Lived k tr true x) :
    ∃ i : Inst, (∀ c : Class, c.kind = k → c.usesTracers = tr → readAttrs c x = .ok i) ∧
      ∀ (R : Registry) (g : Tracers) (c : Class) (state : State), c.kind = k → c.usesTracers = tr →
        startCall R g c x state = prepare R g c i state := by
  obtain ⟨i1, _, i3, _, i5⟩ := lived_spec h
  have hi := i1 rfl
  obtain ⟨f1, f2, f3⟩ := i3 hi
  obtain ⟨ign, hign⟩ := Option.isSome_iff_exists.1 f2
  by_cases hk : k = .diagnostic
  · refine ⟨⟨"", false, ign, none⟩, fun c hc ht => ?_, fun R g c state hc ht => ?_⟩
    · unfold readAttrs
      rw [hign]
      dsimp only
      rw [if_pos (hc.trans hk)]
    · unfold startCall prepare
      rw [if_neg (by simpa using hi), if_neg (by simpa using f1)]
      have hcond : ¬ (c.kind ≠ .diagnostic ∧ c.usesTracers = true) := fun h => h.1 (hc.trans hk)
      simp only [if_neg hcond]
  · obtain ⟨g1, g2, g3⟩ := f3 hk
    obtain ⟨tid, htid⟩ := Option.isSome_iff_exists.1 g1
    obtain ⟨name, hname⟩ := Option.isSome_iff_exists.1 g2
    refine ⟨⟨name, tid, ign, if tr then x.packer else none⟩, fun c hc ht => ?_, fun R g c state hc ht => ?_⟩
    · unfold readAttrs
      rw [hign, htid, hname, g3, ht]
      dsimp only
      rw [if_neg (by rw [hc]; exact hk)]
    · unfold startCall prepare
      rw [if_neg (by simpa using hi), if_neg (by simpa using f1)]
      cases tr with
      | false =>
        have hcond : ¬ (c.kind ≠ .diagnostic ∧ c.usesTracers = true) := fun h => by rw [ht] at h; cases h.2
        simp only [if_neg hcond]
        rfl
      | true =>
        have hcond : c.kind ≠ .diagnostic ∧ c.usesTracers = true := ⟨by rw [hc]; exact hk, ht⟩
        simp only [if_pos hcond]
        obtain ⟨p, hp⟩ := Option.isSome_iff_exists.1 (i5 rfl hk rfl)
        rw [hp]
        rfl

theorem makeCheckers_run (R : Registry) (c : Class) (x : SelfAttrs) :
    (makeCheckers R c (checkersOf c.kind) x).2 = runCheckers R c := by
  unfold runCheckers
  cases hk : c.kind
  all_goals
    simp only [checkersOf, makeCheckers, Checker.make, hk, reduceCtorEq, if_true, if_false]
    cases inputChecker c.inProps with
    | error e => rfl
    | ok u =>
      rw [Exc.ok_bind]
      dsimp only
      cases hd : diagnosticChecker R c.inProps c.diagProps
      all_goals
        first
          | rfl
          | (cases outputChecker R c.inProps c.outProps <;> rfl)
          | (cases tendencyChecker R c.inProps c.outProps <;> rfl)

/-- **C81, refinement.**  `__init__` of a new object is `construct`: the same errors, the
same changes of the class and of the tracers; and once it has completed, the calls of
the object are the calls described in Model/Components. -/
theorem first_init_is_construct (R : Registry) (g g' : Tracers) (c c' : Class) (tid : Bool) (name : String)
    (x : SelfAttrs) (r : Except Err Unit) (h : initSelf R g c tid name {} = (g', c', x, r)) :
    (∀ e, r = .error e → construct R g c tid name = (g', c', .error e)) ∧
    (r = .ok () → ∃ i, construct R g c tid name = (g', c', .ok i) ∧
      ∃ i', readAttrs c' x = .ok i' ∧ i'.ignored = i.ignored ∧ i'.packer = i.packer ∧
        (c.kind ≠ .diagnostic → i' = i)) := by
  have hrun := makeCheckers_run R c (if c.kind = .diagnostic then {} else { tid := some tid, name := some name })
  unfold initSelf at h
  unfold construct
  dsimp only at h
  rcases hz : makeCheckers R c (checkersOf c.kind)
    (if c.kind = .diagnostic then {} else { tid := some tid, name := some name }) with ⟨z, rz⟩
  rw [hz] at h hrun
  obtain ⟨z1, z2, z3, z4, _, _, _, z8⟩ := makeCheckers_spec hz
  dsimp only at hrun h
  rw [← hrun]
  cases rz with
  | error e =>
    cases h
    exact ⟨fun e' he => by cases he; rfl, nofun⟩
  | ok u =>
    obtain ⟨w1, w2, w3, _⟩ := z8 rfl
    have w3 := w3 (by cases c.kind <;> simp [checkersOf])
    dsimp only at h ⊢
    -- the common end
    have hend : ∀ (cc : Class) (zz : SelfAttrs) (ign : List String), cc.kind = c.kind → zz.diagC = some ign →
        zz.tid = z.tid → zz.name = z.name → zz.outC = z.outC → finishInit g cc zz = (g', x, r) →
        (∀ e, r = .error e → makePacker g cc = (g', .error e)) ∧
        (r = .ok () → ∃ p, makePacker g cc = (g', .ok p) ∧
          ∃ i', readAttrs cc x = .ok i' ∧ i'.ignored = ign ∧ i'.packer = p ∧
            (c.kind ≠ .diagnostic → i' = ⟨name, tid, ign, p⟩)) := by
      intro cc zz ign e1 e2 e3 e4 e5 hfin
      obtain ⟨_, v2, v3, v4, v5, _, _, v7⟩ := finishInit_spec hfin
      have hg : (makePacker g cc).1 = g' ∧ (∀ e, r = .error e → (makePacker g cc).2 = .error e) := by
        unfold finishInit at hfin
        dsimp only at hfin
        cases hp : (makePacker g cc).2 with
        | error e => rw [hp] at hfin; cases hfin; exact ⟨rfl, fun _ h => by cases h; rfl⟩
        | ok o => rw [hp] at hfin; cases o <;> (cases hfin; exact ⟨rfl, nofun⟩)
      refine ⟨fun e he => Prod.ext hg.1 (hg.2 e he), fun hr => ?_⟩
      obtain ⟨_, v8, _⟩ := v7 hr
      refine ⟨_, Prod.ext hg.1 v8, ?_⟩
      unfold readAttrs
      rw [v2, e2]
      dsimp only
      by_cases hk : c.kind = .diagnostic
      · rw [if_pos (e1.trans hk), if_neg (fun h => h.1 (e1.trans hk))]
        exact ⟨_, rfl, rfl, rfl, fun h => absurd hk h⟩
      · rw [if_neg (by rw [e1]; exact hk), v3, e3, z3, v4, e4, z4, v5, e5,
          w2 (by revert hk; cases c.kind <;> simp [checkersOf]), if_neg hk]
        have hcond : (if cc.kind ≠ .diagnostic ∧ cc.usesTracers = true then x.packer else none) =
            if cc.usesTracers = true then x.packer else none := by
          by_cases hu : cc.usesTracers = true
          · rw [if_pos ⟨by rw [e1]; exact hk, hu⟩, if_pos hu]
          · rw [if_neg (fun h => hu h.2), if_neg hu]
        rw [hcond]
        exact ⟨_, rfl, rfl, rfl, fun _ => rfl⟩
    have hfinal : ∀ (cc : Class) (ign : List String) , c' = cc →
        ((∀ e, r = .error e → makePacker g cc = (g', .error e)) ∧
        (r = .ok () → ∃ p, makePacker g cc = (g', .ok p) ∧
          ∃ i', readAttrs cc x = .ok i' ∧ i'.ignored = ign ∧ i'.packer = p ∧
            (c.kind ≠ .diagnostic → i' = ⟨name, tid, ign, p⟩))) →
        (∀ e, r = .error e → ((makePacker g cc).1, cc, (makePacker g cc).2 >>= fun p => Except.ok
            ({ name := name, tid := tid, ignored := ign, packer := p } : Inst)) = (g', c', .error e)) ∧
        (r = .ok () → ∃ i, ((makePacker g cc).1, cc, (makePacker g cc).2 >>= fun p => Except.ok
            ({ name := name, tid := tid, ignored := ign, packer := p } : Inst)) = (g', c', .ok i) ∧
          ∃ i', readAttrs c' x = .ok i' ∧ i'.ignored = i.ignored ∧ i'.packer = i.packer ∧
            (c.kind ≠ .diagnostic → i' = i)) := by
      rintro cc ign rfl ⟨k1, k2⟩
      refine ⟨fun e he => by rw [k1 e he]; rfl, fun hr => ?_⟩
      obtain ⟨p, hp, i', q1, q2, q3, q4⟩ := k2 hr
      exact ⟨_, by rw [hp]; rfl, i', q1, q2, q3, q4⟩
    by_cases ht : tid = true
    · subst ht
      by_cases hk : c.kind = .diagnostic
      · rw [if_neg (fun h => h.2 hk)] at h
        have hins : insertProps c name = (c, .ok []) := by unfold insertProps; rw [hk]
        rw [if_pos rfl, hins]
        rcases hfin : finishInit g c z with ⟨a, b⟩
        rw [hfin] at h
        cases h
        exact hfinal c [] rfl (hend c z [] rfl w3 rfl rfl rfl hfin)
      · rw [if_pos ⟨rfl, hk⟩] at h
        rw [if_pos rfl]
        obtain ⟨k1, _⟩ := insertProps_kind c name
        rcases hins : insertProps c name with ⟨ci, ri⟩
        rw [hins] at h k1
        cases ri with
        | error e =>
          cases h
          exact ⟨fun e' he => by cases he; rfl, nofun⟩
        | ok added =>
          dsimp only at h k1 ⊢
          rcases hfin : finishInit g ci { z with diagC := some added } with ⟨a, b⟩
          rw [hfin] at h
          injection h with h1 h
          injection h with h2 h
          subst h1 h2 h
          exact hfinal _ added rfl (hend _ { z with diagC := some added } added k1 rfl rfl rfl rfl hfin)
    · rw [if_neg (fun h => ht h.1)] at h
      rw [if_neg ht]
      rcases hfin : finishInit g c z with ⟨a, b⟩
      rw [hfin] at h
      injection h with h1 h
      injection h with h2 h
      subst h1 h2 h
      exact hfinal c [] rfl (hend c z [] rfl w3 rfl rfl rfl hfin)

/-- **C81, initialised components.**  Once some `__init__` has completed, an object has
every attribute its calls use, whatever later calls of `__init__` did: for some name and
settings its calls are those described in Model/Components. -/
theorem initialised_calls {k : Kind} {tr : Bool} {x : SelfAttrs} (h : Lived k tr true x) :
    ∃ i : Inst, ∀ (R : Registry) (g : Tracers) (c : Class) (state : State), c.kind = k → c.usesTracers = tr →
      (∀ {σ : Type} (ac : σ → RawState → σ × Except Err (Dict NDArray × Dict NDArray)) (s : σ),
        callSelf R g c x ac (fun i _ r => finishTendency g c i state r.1 r.2) s state =
          callTendency R g c i ac s state) ∧
      (∀ {σ : Type} (ac : σ → RawState → Int → σ × Except Err (Dict NDArray × Dict NDArray)) (s : σ) (dt : Int),
        callSelf R g c x (fun s raw => ac s raw dt) (fun i raw r => finishStepper g c i state dt raw.arrays r.1 r.2)
          s state = callStepper R g c i ac s state dt) ∧
      (∀ {σ : Type} (ac : σ → RawState → σ × Except Err (Dict NDArray)) (s : σ),
        callSelf R g c x ac (fun i _ r => finishDiagnostic c i state r) s state =
          callDiagnostic R g c i ac s state) := by
  obtain ⟨i, h1, h2⟩ := initialised_has_attributes h
  refine ⟨i, fun R g c state hc ht => ⟨fun ac s => ?_, fun ac s dt => ?_, fun ac s => ?_⟩⟩
  all_goals
    unfold callSelf
    rw [h2 R g c state hc ht, h1 c hc ht]
    first
      | unfold callTendency
      | unfold callStepper
      | unfold callDiagnostic
    rfl

/-- **C81 is false of Steppers with tracers.**  `Stepper.__init__` declares the object
initialised and then raises ValueError because `tracer_dims` is missing; calling the
object raises AttributeError, or what is wrong with the state, instead of saying that
it has not been initialised. -/
theorem half_initialised_stepper (R : Registry) (g : Tracers) :
    ∃ (c : Class) (x : SelfAttrs), c.kind = .stepper ∧ c.usesTracers = true ∧ Lived .stepper true false x ∧
      (initSelf R g c false "s" {}).2.2 = (x, .error .valueError) ∧
      (∀ {σ α β : Type} (ac : σ → RawState → σ × Except Err α) (finish : Inst → RawState → α → Except Err β) (s : σ),
        (callSelf R g c x ac finish s [("time", .time 0)]).2 = .error .attributeError) ∧
      (∀ {σ α β : Type} (ac : σ → RawState → σ × Except Err α) (finish : Inst → RawState → α → Except Err β) (s : σ),
        (callSelf R g { c with inProps := [("T", {})] } x ac finish s [("time", .time 0)]).2 = .error .invalidState) := by
  let c : Class := { kind := .stepper, inProps := [], outProps := [], diagProps := [], usesTracers := true }
  have hi : initSelf R g c false "s" {} = (g, c,
      { tid := some false, name := some "s", inputC := true, diagC := some [], outC := true, packer := none,
        initialized := true }, .error .valueError) := rfl
  refine ⟨c, _, rfl, rfl, Lived.init .new R g c false "s" rfl rfl _ _ _ _ hi, by rw [hi], fun ac fin s => rfl,
    fun ac fin s => rfl⟩

/-! ### TendencyStepper -/

/-- Calls of `TendencyStepper.__init__` on one object, those that raised having been
caught; the Boolean says whether any completed. -/
inductive TSLived : Bool → Option Bool → Prop
  | new : TSLived false none
  | init {b : Bool} {x : Option Bool} (h : TSLived b x) (R : Registry) (o : SetOrder) (g : Tracers)
      (cs : List (Class × Obj)) (tid : Bool) (name : String) :
      TSLived (b || (tsConstruct R o g cs tid name).toBool) (tsInitSelf R o g cs tid name x).1

/-- **C81, TendencyStepper.**  Before its `__init__` has completed a TendencyStepper raises
AttributeError, the AssertionError that explains the mistake being unreachable, and runs
nothing; afterwards its calls go through. -/
theorem uninitialised_tendency_stepper {b : Bool} {x : Option Bool} (h : TSLived b x) {τ σ : Type}
    (call : τ → σ → State → Int → τ × σ × State × Except Err (Dict DataArray × State))
    (y : τ) (s : σ) (state : State) (dt : Int) :
    tsCallSelf x call y s state dt = if b then call y s state dt else (y, s, state, .error .attributeError) := by
  have : x = if b then some true else none := by
    induction h with
    | new => rfl
    | init h R o g cs tid name ih =>
      unfold tsInitSelf
      cases tsConstruct R o g cs tid name with
      | error e => simpa [Except.toBool] using ih
      | ok c => simp [Except.toBool]
  subst this
  cases b <;> rfl

/-- Non-vacuity: an `__init__` that fails in its second checker leaves the object
uninitialised; a second one succeeds. -/
example :
    let bad : Class := { kind := .tendency, inProps := [], outProps := [("T", { units := some "K" })], diagProps := [] }
    let good : Class := { bad with outProps := [("T", { units := some "K", dims := some ["x"] })] }
    let x1 := (initSelf Demo.reg {} bad true "a" {}).2.2
    let x2 := (initSelf Demo.reg {} good true "b" x1.1).2.2
    Exc.failsWith x1.2 .invalidPropertyDict = true ∧ x1.1.initialized = false ∧ x1.1.inputC = true ∧
    Exc.test x2.2 (fun _ => true) = true ∧ x2.1.initialized = true ∧
    x2.1.diagC = some ["T_tendency_from_b"] := by decide +kernel

end Verif
