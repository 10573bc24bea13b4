import Verif.Props.Coords
import Verif.Props.SteadyRuns
/-!
# C89: time steppers on states with coordinates
-/

namespace Verif

/-- Quantities that are `a` with the coordinates of their name. -/
def WithCoords (C : String → Dict (List Rat)) (k : String) (c : CArray) (a : DataArray) : Prop :=
  c.da = a ∧ c.coords = C k

/-- Tendencies that are `a` without coordinates. -/
def NoCoords (_ : String) (c : CArray) (a : DataArray) : Prop := c.da = a ∧ c.coords = []

/-- Tendencies that are `a`, with the coordinates of the quantity or none. -/
def MaybeCoords (C : String → Dict (List Rat)) (k : String) (c : CArray) (a : DataArray) : Prop :=
  c.da = a ∧ (c.coords = C k ∨ c.coords = [])

/-- Diagnostics that are `a`, with any coordinates. -/
def AnyCoords (c : CArray) (a : DataArray) : Prop := c.da = a

theorem joined_same {a b : CArray} (ha : a.coords.keys.Nodup) (h : b.coords = a.coords) : CArray.joined a b = [] := by
  rw [CArray.joined_nil_iff ha, h]
  intro d l m h1 h2
  rw [h1] at h2
  cases h2
  rfl

theorem joined_right_nil {a b : CArray} (h : b.coords = []) : CArray.joined a b = [] := by
  unfold CArray.joined
  rw [h, List.filterMap_eq_nil_iff]
  intro x _
  rfl

theorem joined_left_nil {a b : CArray} (h : a.coords = []) : CArray.joined a b = [] := by
  unfold CArray.joined
  rw [h]
  rfl

theorem mergeCoords_self (c : Dict (List Rat)) : CArray.mergeCoords c c = c := by
  unfold CArray.mergeCoords
  have : c.filter (fun dl => dl.1 ∉ Dict.keys c) = [] := by
    rw [List.filter_eq_nil_iff]
    intro x hx
    have := Dict.mem_keys_of_mem hx
    simpa using this
  rw [this, List.append_nil]

theorem mergeCoords_nil (c : Dict (List Rat)) : CArray.mergeCoords c [] = c := List.append_nil c

theorem nil_mergeCoords (c : Dict (List Rat)) : CArray.mergeCoords [] c = c := by
  unfold CArray.mergeCoords
  rw [List.nil_append, List.filter_eq_self]
  intro x _
  simp [Dict.keys]

theorem binary_rel {F : DataArray → DataArray → Except Err DataArray} {a b : CArray} {x y : DataArray}
    (ha : a.da = x) (hb : b.da = y) (hj : CArray.joined a b = []) {c : Dict (List Rat)}
    (hc : CArray.mergeCoords a.coords b.coords = c) {P : CArray → DataArray → Prop}
    (hP : ∀ r, P ⟨r, c⟩ r) : Exc.Rel P (CArray.binary F a b) (F x y) := by
  unfold CArray.binary
  rw [if_pos hj, ha, hb, hc]
  cases F x y with
  | error e => rfl
  | ok r => exact hP r

theorem iadd_rel {a b : CArray} {x y : DataArray}
    (ha : a.da = x) (hb : b.da = y) (hj : CArray.joined a b = []) {c : Dict (List Rat)}
    (hc : CArray.mergeCoords a.coords b.coords = c) {P : CArray → DataArray → Prop}
    (hP : ∀ r, P ⟨r, c⟩ r) : Exc.Rel P (CArray.iadd a b) (x.iadd y) := by
  unfold CArray.iadd
  rw [if_pos hj, ha, hb, hc]
  cases x.iadd y with
  | error e => rfl
  | ok r => exact hP r

theorem toUnits_rel {R : Registry} {a : CArray} {x : DataArray} (ha : a.da = x) (u : String)
    {P : CArray → DataArray → Prop} (hP : ∀ r, P ⟨r, a.coords⟩ r) :
    Exc.Rel P (CArray.toUnits R a u) (x.toUnits R u) := by
  unfold CArray.toUnits
  rw [ha]
  cases x.toUnits R u with
  | error e => rfl
  | ok r => exact hP r

variable {R : Registry} {C : String → Dict (List Rat)}

/-- States with coordinates and tendencies without coordinates stand for the DataArrays. -/
theorem coords_stand (hC : ∀ k, (C k).keys.Nodup) :
    StandFor R (coordsArith R) (WithCoords C) NoCoords AnyCoords where
  attrsS h := congrArg DataArray.attrs h.1
  attrsT h := congrArg DataArray.attrs h.1
  container _ := rfl
  toUnitsS h u := toUnits_rel h.1 u fun _ => ⟨rfl, h.2⟩
  toUnitsT h u := toUnits_rel h.1 u fun _ => ⟨rfl, h.2⟩
  smulS h c := ⟨congrArg (DataArray.smul c) h.1, h.2⟩
  smulT h c := ⟨congrArg (DataArray.smul c) h.1, h.2⟩
  setAttrs h m := by
    obtain ⟨rfl, h2⟩ := h
    exact ⟨rfl, h2⟩
  divide h c := by
    obtain ⟨rfl, h2⟩ := h
    exact ⟨rfl, h2⟩
  addSS {k _ _ _ _} h1 h2 := binary_rel h1.1 h2.1
    (joined_same (by rw [h1.2]; exact hC k) (by rw [h1.2, h2.2]))
    (by rw [h1.2, h2.2]; exact mergeCoords_self _) fun _ => ⟨rfl, rfl⟩
  addST h1 h2 := binary_rel h1.1 h2.1 (joined_right_nil h2.2)
    (by rw [h1.2, h2.2]; exact mergeCoords_nil _) fun _ => ⟨rfl, rfl⟩
  addTT h1 h2 := binary_rel h1.1 h2.1 (joined_right_nil h2.2)
    (by rw [h1.2, h2.2]; exact mergeCoords_nil _) fun _ => ⟨rfl, rfl⟩
  subSS {k _ _ _ _} h1 h2 := binary_rel h1.1 h2.1
    (joined_same (by rw [h1.2]; exact hC k) (by rw [h1.2, h2.2]))
    (by rw [h1.2, h2.2]; exact mergeCoords_self _) fun _ => ⟨rfl, rfl⟩
  subTT h1 h2 := binary_rel h1.1 h2.1 (joined_right_nil h2.2)
    (by rw [h1.2, h2.2]; exact mergeCoords_nil _) fun _ => ⟨rfl, rfl⟩
  iadd {k _ _ _ _} h1 h2 := iadd_rel h1.1 h2.1
    (joined_same (by rw [h1.2]; exact hC k) (by rw [h1.2, h2.2]))
    (by rw [h1.2, h2.2]; exact mergeCoords_self _) fun _ => ⟨rfl, rfl⟩
  diag h := h.1

theorem joined_maybe {a b : CArray} {c : Dict (List Rat)} (hc : c.keys.Nodup) (ha : a.coords = c ∨ a.coords = [])
    (hb : b.coords = c ∨ b.coords = []) : CArray.joined a b = [] := by
  rcases ha with ha | ha
  · rcases hb with hb | hb
    · exact joined_same (by rw [ha]; exact hc) (by rw [ha, hb])
    · exact joined_right_nil hb
  · exact joined_left_nil ha

theorem merge_maybe {a b : CArray} {c : Dict (List Rat)} (ha : a.coords = c ∨ a.coords = [])
    (hb : b.coords = c ∨ b.coords = []) :
    CArray.mergeCoords a.coords b.coords = c ∨ CArray.mergeCoords a.coords b.coords = [] := by
  rcases ha with ha | ha
  · rcases hb with hb | hb
    · rw [ha, hb]; exact .inl (mergeCoords_self _)
    · rw [ha, hb]; exact .inl (mergeCoords_nil _)
  · rw [ha]
    rw [nil_mergeCoords]
    exact hb

theorem merge_left {a b : CArray} {c : Dict (List Rat)} (ha : a.coords = c)
    (hb : b.coords = c ∨ b.coords = []) : CArray.mergeCoords a.coords b.coords = c := by
  rcases hb with hb | hb
  · rw [ha, hb]; exact mergeCoords_self _
  · rw [ha, hb]; exact mergeCoords_nil _

/-- The same with tendencies that may have the coordinates of the quantity (as those of a
TimeDifferencingWrapper have, basic.py:422-424). -/
theorem coords_stand_maybe (hC : ∀ k, (C k).keys.Nodup) :
    StandFor R (coordsArith R) (WithCoords C) (MaybeCoords C) AnyCoords where
  attrsS h := congrArg DataArray.attrs h.1
  attrsT h := congrArg DataArray.attrs h.1
  container _ := rfl
  toUnitsS h u := toUnits_rel h.1 u fun _ => ⟨rfl, h.2⟩
  toUnitsT h u := toUnits_rel h.1 u fun _ => ⟨rfl, h.2⟩
  smulS h c := ⟨congrArg (DataArray.smul c) h.1, h.2⟩
  smulT h c := ⟨congrArg (DataArray.smul c) h.1, h.2⟩
  setAttrs h m := (coords_stand (R := R) hC).setAttrs h m
  divide h c := (coords_stand (R := R) hC).divide h c
  addSS h1 h2 := (coords_stand (R := R) hC).addSS h1 h2
  addST {k _ _ _ _} h1 h2 := binary_rel h1.1 h2.1 (joined_maybe (hC k) (.inl h1.2) h2.2)
    (merge_left h1.2 h2.2) fun _ => ⟨rfl, rfl⟩
  addTT {k _ _ _ _} h1 h2 := binary_rel h1.1 h2.1 (joined_maybe (hC k) h1.2 h2.2) rfl
    fun _ => ⟨rfl, merge_maybe h1.2 h2.2⟩
  subSS h1 h2 := (coords_stand (R := R) hC).subSS h1 h2
  subTT {k _ _ _ _} h1 h2 := binary_rel h1.1 h2.1 (joined_maybe (hC k) h1.2 h2.2) rfl
    fun _ => ⟨rfl, merge_maybe h1.2 h2.2⟩
  iadd h1 h2 := (coords_stand (R := R) hC).iadd h1 h2
  diag h := h.1

/-! ## From relations to coordinates -/

theorem stateRel_iff {s : EState CArray} {s' : State} :
    StateRel (WithCoords C) s s' ↔ Labelled C s ∧ bareState s = s' := by
  constructor
  · intro h
    induction h with
    | nil => exact ⟨fun k a h => (List.not_mem_nil h).elim, rfl⟩
    | cons hab hl ih =>
      rename_i a b l l'
      obtain ⟨ka, va⟩ := a
      obtain ⟨kb, vb⟩ := b
      obtain ⟨hk, hv⟩ := hab
      simp only at hk hv
      subst hk
      obtain ⟨ih1, ih2⟩ := ih
      cases va with
      | da c =>
        cases vb with
        | time t => exact hv.elim
        | da a =>
          obtain ⟨h1, h2⟩ := hv
          refine ⟨?_, ?_⟩
          · intro k x hx
            rcases List.mem_cons.1 hx with e | hx
            · cases e; exact h2
            · exact ih1 k x hx
          · show (ka, Val.da c.da) :: bareState l = _
            rw [h1, ih2]
      | time t =>
        cases vb with
        | da a => exact hv.elim
        | time t' =>
          have hv : t = t' := hv
          subst hv
          refine ⟨?_, ?_⟩
          · intro k x hx
            rcases List.mem_cons.1 hx with e | hx
            · cases e
            · exact ih1 k x hx
          · show (ka, Val.time t) :: bareState l = _
            rw [ih2]
  · rintro ⟨h1, rfl⟩
    induction s with
    | nil => exact List.Forall₂.nil
    | cons kv s ih =>
      have ih := ih fun k a h => h1 k a (List.mem_cons_of_mem _ h)
      obtain ⟨k, v⟩ := kv
      cases v with
      | da c => exact List.Forall₂.cons ⟨rfl, rfl, h1 k c List.mem_cons_self⟩ ih
      | time t => exact List.Forall₂.cons ⟨rfl, rfl⟩ ih

theorem noCoords_iff {t : Dict CArray} {t' : Dict DataArray} : KeyRel NoCoords t t' ↔ t = unlabelled t' := by
  constructor
  · intro h
    induction h with
    | nil => rfl
    | cons hab hl ih =>
      rename_i a b l l'
      obtain ⟨ka, da, ca⟩ := a
      obtain ⟨kb, vb⟩ := b
      obtain ⟨hk, hv, hc⟩ := hab
      simp only at hk hv hc
      subst hk hv hc
      rw [ih]
      rfl
  · rintro rfl
    induction t' with
    | nil => exact List.Forall₂.nil
    | cons kv t ih => exact List.Forall₂.cons ⟨rfl, rfl, rfl⟩ ih

theorem abRel_iff {x : ABOver CArray} {y : AB} : ABOverRel NoCoords x y ↔ x = liftAB y := by
  obtain ⟨o, ts, h⟩ := x
  obtain ⟨o', ts', h'⟩ := y
  have key : ∀ h h', List.Forall₂ (KeyRel NoCoords) h h' ↔ h = h'.map unlabelled := by
    intro h h'
    constructor
    · intro hh
      induction hh with
      | nil => rfl
      | cons hab _ ih => rw [noCoords_iff.1 hab, ih, List.map_cons]
    · rintro rfl
      induction h' with
      | nil => exact List.Forall₂.nil
      | cons t l ih => exact List.Forall₂.cons (noCoords_iff.2 rfl) ih
  constructor
  · rintro ⟨h1, h2, h3⟩
    simp only at h1 h2 h3
    subst h1 h2
    rw [(key _ _).1 h3]
    rfl
  · intro e
    unfold liftAB at e
    cases e
    exact ⟨rfl, rfl, (key _ _).2 rfl⟩

theorem anyCoords_bare {t : Dict CArray} {t' : Dict DataArray} (h : DictRel AnyCoords t t') : bareArrays t = t' := by
  induction h with
  | nil => rfl
  | cons hab hl ih =>
    rename_i a b l l'
    obtain ⟨ka, ca⟩ := a
    obtain ⟨kb, vb⟩ := b
    obtain ⟨hk, hv⟩ := hab
    simp only at hk hv
    subst hk
    have hv : ca.da = vb := hv
    show (ka, ca.da) :: bareArrays l = _
    rw [hv, ih]

theorem stepRel_same {x : Except Err (Dict CArray × EState CArray)} {y : Except Err (Dict DataArray × State)}
    (h : StepRel (WithCoords C) AnyCoords x y) : SameWithCoords C x y := by
  cases x <;> cases y
  · exact h
  · exact h.elim
  · exact h.elim
  · exact ⟨anyCoords_bare h.1, stateRel_iff.1 h.2⟩

theorem onBare_rel {σ : Type} (p : Prog σ) : ProgRel (WithCoords C) NoCoords AnyCoords (onBare p) p := by
  intro s state state' dt hs
  obtain ⟨-, rfl⟩ := stateRel_iff.1 hs
  refine ⟨rfl, ?_⟩
  unfold onBare
  dsimp only
  cases (p s (bareState state) dt).2 with
  | error e => rfl
  | ok r =>
    refine ⟨noCoords_iff.2 rfl, ?_⟩
    show DictRel AnyCoords (unlabelled r.2) r.2
    generalize r.2 = d
    induction d with
    | nil => exact List.Forall₂.nil
    | cons kv d ih => exact List.Forall₂.cons ⟨rfl, rfl⟩ ih

/-! ## Theorems -/

/-- **C89, AdamsBashforth.**  Called on a state whose quantities have coordinates, an
AdamsBashforth gives the diagnostics and new state it gives without coordinates (or raises the
same exception), and each quantity of the new state has the coordinates it has in the state. -/
theorem ab_coords {σ : Type} (p : Prog σ) (inProps outProps : PropDict) (inst : String) (tid : Bool) (ab : AB) (s : σ)
    (state : EState CArray) (dt : Int) (hC : ∀ k, (C k).keys.Nodup) (hs : Labelled C state) :
    let r := tsCallO (coordsArith R) inProps outProps inst tid (abCallO (coordsArith R) (onBare p)) (liftAB ab) s state dt
    let r' := tsCall R inProps outProps inst tid (abCall R p) ab s (bareState state) dt
    r.1 = liftAB r'.1 ∧ r.2.1 = r'.2.1 ∧ SameWithCoords C r.2.2.2 r'.2.2.2 := by
  have hs' : StateRel (WithCoords C) state (bareState state) := stateRel_iff.2 ⟨hs, rfl⟩
  obtain ⟨h1, h2, h3⟩ := ab_over (coords_stand (R := R) hC) (onBare_rel p) (abRel_iff.2 (rfl : liftAB ab = _)) s hs' dt
  obtain ⟨h5, h6, -, h8⟩ := stepper_over (coords_stand (R := R) hC) (ABOverRel NoCoords) inProps outProps inst tid
    (call := abCallO (coordsArith R) (onBare p)) (call' := abCall R p) s dt ⟨h1, h2, hs', h3⟩
  exact ⟨abRel_iff.1 h5, h6, stepRel_same h8⟩

/-- **C89, SSPRungeKutta.** -/
theorem ssprk_coords {σ : Type} (p : Prog σ) (three : Bool) (inProps outProps : PropDict) (inst : String) (tid : Bool)
    (ab : AB) (s : σ) (state : EState CArray) (dt : Int) (hC : ∀ k, (C k).keys.Nodup) (hs : Labelled C state) :
    let r := tsCallO (coordsArith R) inProps outProps inst tid (sspCallO (coordsArith R) (onBare p) three) (liftAB ab) s
      state dt
    let r' := tsCall R inProps outProps inst tid (sspCall R p three) ab s (bareState state) dt
    r.1 = liftAB r'.1 ∧ r.2.1 = r'.2.1 ∧ SameWithCoords C r.2.2.2 r'.2.2.2 := by
  have hs' : StateRel (WithCoords C) state (bareState state) := stateRel_iff.2 ⟨hs, rfl⟩
  obtain ⟨h1, h2, h3⟩ := ssprk_over (coords_stand (R := R) hC) (onBare_rel p) three
    (abRel_iff.2 (rfl : liftAB ab = _)) s hs' dt
  obtain ⟨h5, h6, -, h8⟩ := stepper_over (coords_stand (R := R) hC) (ABOverRel NoCoords) inProps outProps inst tid
    (call := sspCallO (coordsArith R) (onBare p) three) (call' := sspCall R p three) s dt ⟨h1, h2, hs', h3⟩
  exact ⟨abRel_iff.1 h5, h6, stepRel_same h8⟩

/-- The memory of a Leapfrog, without coordinates. -/
def bareLF (lf : LFOver CArray) : LF :=
  { strength := lf.strength, alpha := lf.alpha, timestep := lf.timestep, old := lf.old.map bareState }

/-- The state a Leapfrog remembers has coordinates `C`. -/
def LabelledLF (C : String → Dict (List Rat)) (lf : LFOver CArray) : Prop :=
  ∀ old, lf.old = some old → Labelled C old

theorem lfRel_iff {x : LFOver CArray} {y : LF} : LFOverRel (WithCoords C) x y ↔ LabelledLF C x ∧ bareLF x = y := by
  obtain ⟨a, b, c, o⟩ := x
  obtain ⟨a', b', c', o'⟩ := y
  constructor
  · rintro ⟨h1, h2, h3, h4⟩
    simp only at h1 h2 h3 h4
    subst h1 h2 h3
    cases o with
    | none =>
      cases o' with
      | none => exact ⟨fun _ h => (nomatch h), rfl⟩
      | some o' => exact h4.elim
    | some o =>
      cases o' with
      | none => exact h4.elim
      | some o' =>
        obtain ⟨h5, h6⟩ := stateRel_iff.1 h4
        refine ⟨fun old h => by cases h; exact h5, ?_⟩
        subst h6
        rfl
  · rintro ⟨h1, h2⟩
    unfold bareLF at h2
    cases h2
    refine ⟨rfl, rfl, rfl, ?_⟩
    cases o with
    | none => trivial
    | some o => exact stateRel_iff.2 ⟨h1 o rfl, rfl⟩

/-- **C89, Leapfrog**, if the state it remembers has the coordinates of the state it is called
on; the state passed is changed by the filter and keeps its coordinates. -/
theorem leapfrog_coords {σ : Type} (p : Prog σ) (inProps outProps : PropDict) (inst : String) (tid : Bool)
    (lf : LFOver CArray) (s : σ) (state : EState CArray) (dt : Int) (hC : ∀ k, (C k).keys.Nodup)
    (hlf : LabelledLF C lf) (hs : Labelled C state) :
    let r := tsCallO (coordsArith R) inProps outProps inst tid (LFOver.call (coordsArith R) (onBare p)) lf s state dt
    let r' := tsCall R inProps outProps inst tid (LF.call R p) (bareLF lf) s (bareState state) dt
    LabelledLF C r.1 ∧ bareLF r.1 = r'.1 ∧ r.2.1 = r'.2.1 ∧ Labelled C r.2.2.1 ∧ bareState r.2.2.1 = r'.2.2.1 ∧
      SameWithCoords C r.2.2.2 r'.2.2.2 := by
  have hs' : StateRel (WithCoords C) state (bareState state) := stateRel_iff.2 ⟨hs, rfl⟩
  have h0 := leapfrog_over (coords_stand (R := R) hC) (onBare_rel p) (lfRel_iff.2 ⟨hlf, rfl⟩) s hs' dt
  obtain ⟨h5, h6, h7, h8⟩ := stepper_over (coords_stand (R := R) hC) (LFOverRel (WithCoords C)) inProps outProps inst tid
    (call := LFOver.call (coordsArith R) (onBare p)) (call' := LF.call R p) s dt h0
  obtain ⟨h9, h10⟩ := lfRel_iff.1 h5
  obtain ⟨h11, h12⟩ := stateRel_iff.1 h7
  exact ⟨h9, h10, h6, h11, h12, stepRel_same h8⟩

/-- A run of a stepper that keeps coordinates. -/
theorem run_coords {σ τ τ' : Type} (M : τ → τ' → Prop)
    (call : τ → σ → EState CArray → Int → τ × σ × EState CArray × Except Err (Dict CArray × EState CArray))
    (call' : τ' → σ → State → Int → τ' × σ × State × Except Err (Dict DataArray × State)) (dt : Int)
    (hcall : ∀ x x' s state, M x x' → Labelled C state →
      M (call x s state dt).1 (call' x' s (bareState state) dt).1 ∧
      (call x s state dt).2.1 = (call' x' s (bareState state) dt).2.1 ∧
      SameWithCoords C (call x s state dt).2.2.2 (call' x' s (bareState state) dt).2.2.2)
    (n : Nat) (x : τ) (x' : τ') (s : σ) (state : EState CArray) (hM : M x x') (hs : Labelled C state) :
    (runSteps call' dt n x' s (bareState state) = none → runStepsO call dt n x s state = none) ∧
    ∀ y' s' final', runSteps call' dt n x' s (bareState state) = some (y', s', final') →
      ∃ y final, runStepsO call dt n x s state = some (y, s', final) ∧ M y y' ∧ Labelled C final ∧
        bareState final = final' := by
  induction n generalizing x x' s state with
  | zero =>
    refine ⟨fun h => (nomatch h), ?_⟩
    intro y' s' final' h
    unfold runSteps at h
    cases h
    exact ⟨x, state, rfl, hM, hs, rfl⟩
  | succ n ih =>
    have h := hcall x x' s state hM hs
    unfold runSteps runStepsO
    revert h
    generalize call x s state dt = r
    generalize call' x' s (bareState state) dt = r'
    intro h
    obtain ⟨r1, r2, r3, r4⟩ := r
    obtain ⟨r1', r2', r3', r4'⟩ := r'
    obtain ⟨h1, h2, h3⟩ := h
    simp only at h1 h2 h3
    subst h2
    cases r4 with
    | error e =>
      cases r4' with
      | error e' => exact ⟨fun _ => rfl, fun _ _ _ h => (nomatch h)⟩
      | ok b => exact h3.elim
    | ok o =>
      cases r4' with
      | error e' => exact h3.elim
      | ok o' =>
        obtain ⟨d, new⟩ := o
        obtain ⟨d', new'⟩ := o'
        obtain ⟨-, h4, h5⟩ := h3
        simp only at h4 h5
        subst h5
        exact ih r1 r1' r2 new h1 h4

/-- **C89, whole runs** with AdamsBashforth: `n` steps from a state with coordinates end in the
state they end in without coordinates, with the coordinates the quantities had at the start. -/
theorem ab_coords_run {σ : Type} (p : Prog σ) (inProps outProps : PropDict) (inst : String) (tid : Bool) (ab : AB) (s : σ)
    (state : EState CArray) (dt : Int) (n : Nat) (hC : ∀ k, (C k).keys.Nodup) (hs : Labelled C state)
    {ab' : AB} {s' : σ} {final' : State}
    (h : runSteps (tsCall R inProps outProps inst tid (abCall R p)) dt n ab s (bareState state) = some (ab', s', final')) :
    ∃ final, runStepsO (tsCallO (coordsArith R) inProps outProps inst tid (abCallO (coordsArith R) (onBare p))) dt n
      (liftAB ab) s state = some (liftAB ab', s', final) ∧ Labelled C final ∧ bareState final = final' := by
  obtain ⟨y, final, h1, h2, h3, h4⟩ := (run_coords (fun x y => x = liftAB y)
    (tsCallO (coordsArith R) inProps outProps inst tid (abCallO (coordsArith R) (onBare p)))
    (tsCall R inProps outProps inst tid (abCall R p)) dt
    (fun x x' s state hM hs => by subst hM; exact ab_coords p inProps outProps inst tid x' s state dt hC hs)
    n (liftAB ab) ab s state rfl hs).2 ab' s' final' h
  subst h2
  exact ⟨final, h1, h3, h4⟩

/-- **C89, whole runs** with SSPRungeKutta. -/
theorem ssprk_coords_run {σ : Type} (p : Prog σ) (three : Bool) (inProps outProps : PropDict) (inst : String) (tid : Bool)
    (ab : AB) (s : σ) (state : EState CArray) (dt : Int) (n : Nat) (hC : ∀ k, (C k).keys.Nodup) (hs : Labelled C state)
    {ab' : AB} {s' : σ} {final' : State}
    (h : runSteps (tsCall R inProps outProps inst tid (sspCall R p three)) dt n ab s (bareState state) =
      some (ab', s', final')) :
    ∃ final, runStepsO (tsCallO (coordsArith R) inProps outProps inst tid (sspCallO (coordsArith R) (onBare p) three)) dt
      n (liftAB ab) s state = some (liftAB ab', s', final) ∧ Labelled C final ∧ bareState final = final' := by
  obtain ⟨y, final, h1, h2, h3, h4⟩ := (run_coords (fun x y => x = liftAB y)
    (tsCallO (coordsArith R) inProps outProps inst tid (sspCallO (coordsArith R) (onBare p) three))
    (tsCall R inProps outProps inst tid (sspCall R p three)) dt
    (fun x x' s state hM hs => by subst hM; exact ssprk_coords p three inProps outProps inst tid x' s state dt hC hs)
    n (liftAB ab) ab s state rfl hs).2 ab' s' final' h
  subst h2
  exact ⟨final, h1, h3, h4⟩

/-- **C89, whole runs** with Leapfrog. -/
theorem leapfrog_coords_run {σ : Type} (p : Prog σ) (inProps outProps : PropDict) (inst : String) (tid : Bool)
    (strength alpha : Rat) (s : σ) (state : EState CArray) (dt : Int) (n : Nat) (hC : ∀ k, (C k).keys.Nodup)
    (hs : Labelled C state) {lf' : LF} {s' : σ} {final' : State}
    (h : runSteps (tsCall R inProps outProps inst tid (LF.call R p)) dt n { strength := strength, alpha := alpha } s
      (bareState state) = some (lf', s', final')) :
    ∃ lf final, runStepsO (tsCallO (coordsArith R) inProps outProps inst tid (LFOver.call (coordsArith R) (onBare p))) dt
      n { strength := strength, alpha := alpha } s state = some (lf, s', final) ∧ bareLF lf = lf' ∧
      Labelled C final ∧ bareState final = final' := by
  obtain ⟨y, final, h1, h2, h3, h4⟩ := (run_coords (fun x y => LabelledLF C x ∧ bareLF x = y)
    (tsCallO (coordsArith R) inProps outProps inst tid (LFOver.call (coordsArith R) (onBare p)))
    (tsCall R inProps outProps inst tid (LF.call R p)) dt
    (fun x x' s state hM hs => by
      obtain ⟨hM, rfl⟩ := hM
      obtain ⟨a1, a2, a3, -, -, a6⟩ := leapfrog_coords (R := R) p inProps outProps inst tid x s state dt hC hM hs
      exact ⟨⟨a1, a2⟩, a3, a6⟩)
    n { strength := strength, alpha := alpha } { strength := strength, alpha := alpha } s state
    ⟨fun _ h => (nomatch h), rfl⟩ hs).2 lf' s' final' h
  exact ⟨y, final, h1, h2.2, h3, h4⟩

end Verif
