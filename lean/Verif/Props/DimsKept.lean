import Verif.Spec.DimsKept
import Verif.Props.Keyed
import Verif.Props.RestoreArrays
import Verif.Lemmas.ComponentCalls
/-!
# C96: time steppers keep the dimensions of quantities
-/

namespace Verif

/-! ## Binary operations -/

theorem len_of_sized {L : String → Nat} {a : DataArray} (h : a.Sized L) {d : String} (hd : d ∈ a.dims) :
    a.len d = L d := len_of_shape h.2 hd

/-- Arithmetic of arrays whose lengths depend on the name of the dimension never fails, and
gives the axes of the left operand followed by the others of the right operand. -/
theorem sized_binop {L : String → Nat} {a b : DataArray} (ha : a.Sized L) (hb : b.Sized L) (f : Rat → Rat → Rat) :
    ∃ c, DataArray.binop f a b = .ok c ∧ c.Sized L ∧ c.dims = a.dims ++ b.dims.filter (fun d => d ∉ a.dims) := by
  unfold DataArray.binop
  rw [if_pos (fun d h1 h2 => by rw [len_of_sized ha h2, len_of_sized hb h1])]
  refine ⟨_, rfl, ⟨?_, ?_⟩, rfl⟩
  · refine List.nodup_append.2 ⟨ha.1, hb.1.filter _, ?_⟩
    intro d h1 d' h2 h
    subst h
    simp only [List.mem_filter, decide_eq_true_eq] at h2
    exact h2.2 h1
  · refine List.map_congr_left fun d hd => ?_
    by_cases h : d ∈ a.dims
    · rw [if_pos h, len_of_sized ha h]
    · rw [if_neg h]
      rcases List.mem_append.1 hd with h1 | h1
      · exact absurd h1 h
      · exact len_of_sized hb (List.mem_filter.1 h1).1

/-! ## Keeping a property -/

/-- Properties of the quantities and of their tendencies that arithmetic keeps. -/
structure KeptBy (P Pt : String → DataArray → Prop) : Prop where
  map : ∀ {k a}, P k a → ∀ (f : Rat → Rat) m, P k { a with arr := a.arr.map f, attrs := m }
  setAttrs : ∀ {k a}, P k a → ∀ m, P k { a with attrs := m }
  mapT : ∀ {k a}, Pt k a → ∀ (f : Rat → Rat) m, Pt k { a with arr := a.arr.map f, attrs := m }
  setAttrsT : ∀ {k a}, Pt k a → ∀ m, Pt k { a with attrs := m }
  binopSS : ∀ {k a b c} f, P k a → P k b → DataArray.binop f a b = .ok c → P k c
  binopST : ∀ {k a b c} f, P k a → Pt k b → DataArray.binop f a b = .ok c → P k c
  binopTT : ∀ {k a b c} f, Pt k a → Pt k b → DataArray.binop f a b = .ok c → Pt k c

/-- The same array, which has the property. -/
def Kept (P : String → DataArray → Prop) (k : String) (a b : DataArray) : Prop := a = b ∧ P k b

theorem Exc.rel_self {α : Type} {P : α → Prop} {x : Except Err α} (h : ∀ a, x = .ok a → P a) :
    Exc.Rel (fun a b => a = b ∧ P b) x x := by
  cases x with
  | error e => rfl
  | ok a => exact ⟨rfl, h a rfl⟩

theorem Kept.toUnits {R : Registry} {P : String → DataArray → Prop}
    (hm : ∀ {k a}, P k a → ∀ (f : Rat → Rat) m, P k { a with arr := a.arr.map f, attrs := m })
    {k : String} {a : DataArray} (h : P k a) {u : String} {b : DataArray} (he : a.toUnits R u = .ok b) : P k b := by
  unfold DataArray.toUnits DataArray.dataArrayToUnits at he
  cases hu : a.attrs.get? "units" with
  | none => simp [hu] at he
  | some own =>
    simp only [hu] at he
    cases h1 : R.unit own with
    | error e => rw [h1] at he; cases e <;> simp [bind, Except.bind] at he
    | ok x =>
      cases h2 : R.unit u with
      | error e => rw [h1, h2] at he; cases e <;> simp [bind, Except.bind] at he
      | ok y =>
        rw [h1, h2] at he
        simp only [Exc.ok_bind] at he
        by_cases h3 : x.sameQty y = true
        · simp only [h3, if_true] at he
          cases he; exact h
        · simp only [h3, if_false, Bool.false_eq_true] at he
          by_cases h4 : x.dim = y.dim
          · simp only [h4, if_true] at he
            cases he; exact hm h _ _
          · simp [h4] at he

theorem KeptBy.stand {R : Registry} {P Pt : String → DataArray → Prop} (hP : KeptBy P Pt) :
    StandFor R (dataArrayArith R) (Kept P) (Kept Pt) (fun a b => a = b) where
  attrsS := by rintro k v a ⟨rfl, h⟩; rfl
  attrsT := by rintro k v a ⟨rfl, h⟩; rfl
  container := by intros; rfl
  toUnitsS := by rintro k v a ⟨rfl, h⟩ u; exact Exc.rel_self fun b hb => Kept.toUnits hP.map h hb
  toUnitsT := by rintro k v a ⟨rfl, h⟩ u; exact Exc.rel_self fun b hb => Kept.toUnits hP.mapT h hb
  smulS := by rintro k v a ⟨rfl, h⟩ c; exact ⟨rfl, hP.map h _ _⟩
  smulT := by rintro k v a ⟨rfl, h⟩ c; exact ⟨rfl, hP.mapT h _ _⟩
  setAttrs := by rintro k v a ⟨rfl, h⟩ m; exact ⟨rfl, hP.setAttrs h _⟩
  divide := by rintro k v a ⟨rfl, h⟩ c; exact ⟨rfl, hP.map h _ _⟩
  addSS := by
    rintro k v a w b ⟨rfl, h⟩ ⟨rfl, h'⟩
    refine Exc.rel_self fun c hc => ?_
    obtain ⟨r, hr, hc⟩ := Exc.bind_ok_iff.1 hc
    cases hc
    exact hP.setAttrs (hP.binopSS _ h h' hr) _
  addST := by
    rintro k v a w b ⟨rfl, h⟩ ⟨rfl, h'⟩
    refine Exc.rel_self fun c hc => ?_
    obtain ⟨r, hr, hc⟩ := Exc.bind_ok_iff.1 hc
    cases hc
    exact hP.setAttrs (hP.binopST _ h h' hr) _
  addTT := by
    rintro k v a w b ⟨rfl, h⟩ ⟨rfl, h'⟩
    refine Exc.rel_self fun c hc => ?_
    obtain ⟨r, hr, hc⟩ := Exc.bind_ok_iff.1 hc
    cases hc
    exact hP.setAttrsT (hP.binopTT _ h h' hr) _
  subSS := by
    rintro k v a w b ⟨rfl, h⟩ ⟨rfl, h'⟩
    refine Exc.rel_self fun c hc => ?_
    obtain ⟨r, hr, hc⟩ := Exc.bind_ok_iff.1 hc
    cases hc
    exact hP.setAttrs (hP.binopSS _ h h' hr) _
  subTT := by
    rintro k v a w b ⟨rfl, h⟩ ⟨rfl, h'⟩
    refine Exc.rel_self fun c hc => ?_
    obtain ⟨r, hr, hc⟩ := Exc.bind_ok_iff.1 hc
    cases hc
    exact hP.setAttrsT (hP.binopTT _ h h' hr) _
  iadd := by
    rintro k v a w b ⟨rfl, h⟩ ⟨rfl, h'⟩
    refine Exc.rel_self fun c hc => ?_
    change v.iadd w = _ at hc
    unfold DataArray.iadd at hc
    split at hc
    · obtain ⟨r, hr, hc⟩ := Exc.bind_ok_iff.1 hc
      cases hc
      exact hP.setAttrs (hP.binopSS _ h h' hr) _
    · cases hc
  diag := by rintro k v a ⟨rfl, h⟩; rfl

theorem keyRel_kept {P : String → DataArray → Prop} {d d' : Dict DataArray} :
    KeyRel (Kept P) d d' ↔ d = d' ∧ ∀ k a, (k, a) ∈ d' → P k a := by
  constructor
  · intro h
    induction h with
    | nil => exact ⟨rfl, fun k a h => absurd h (List.not_mem_nil)⟩
    | @cons a b l l' hab _ ih =>
      obtain ⟨ka, va⟩ := a
      obtain ⟨kb, vb⟩ := b
      obtain ⟨hk, rfl, hv⟩ := hab
      simp only at hk hv
      subst hk
      refine ⟨by rw [ih.1], fun k a h => ?_⟩
      rcases List.mem_cons.1 h with h | h
      · cases h; exact hv
      · exact ih.2 k a h
  · rintro ⟨rfl, h⟩
    induction d with
    | nil => exact .nil
    | cons a l ih => exact .cons ⟨rfl, rfl, h _ _ List.mem_cons_self⟩ (ih fun k b hb => h k b (List.mem_cons_of_mem _ hb))

theorem statesRel_kept {P : String → DataArray → Prop} {s s' : State} :
    StatesRelK (Kept P) s s' ↔ s = s' ∧ ∀ k a, (k, Val.da a) ∈ s' → P k a := by
  constructor
  · intro h
    induction h with
    | nil => exact ⟨rfl, fun k a h => absurd h (List.not_mem_nil)⟩
    | @cons a b l l' hab _ ih =>
      obtain ⟨ka, va⟩ := a
      obtain ⟨kb, vb⟩ := b
      obtain ⟨hk, hv⟩ := hab
      simp only at hk hv
      subst hk
      cases va <;> cases vb
      · obtain ⟨rfl, hv⟩ := hv
        refine ⟨by rw [ih.1], fun k a h => ?_⟩
        rcases List.mem_cons.1 h with h | h
        · cases h; exact hv
        · exact ih.2 k a h
      · exact hv.elim
      · exact hv.elim
      · cases (show _ = _ from hv)
        refine ⟨by rw [ih.1], fun k a h => ?_⟩
        rcases List.mem_cons.1 h with h | h
        · cases h
        · exact ih.2 k a h
  · rintro ⟨rfl, h⟩
    induction s with
    | nil => exact .nil
    | cons a l ih =>
      obtain ⟨k, v⟩ := a
      refine .cons ⟨rfl, ?_⟩ (ih fun k b hb => h k b (List.mem_cons_of_mem _ hb))
      cases v with
      | da a => exact ⟨rfl, h _ _ List.mem_cons_self⟩
      | time t => exact rfl

theorem dictRel_id {d : Dict DataArray} : DictRel (fun a b => a = b) d d := by
  induction d with
  | nil => exact .nil
  | cons a l ih => exact .cons ⟨rfl, rfl⟩ ih

/-- A component whose tendencies have the property when the quantities of the state do. -/
def GivesKept {σ : Type} (P Pt : String → DataArray → Prop) (p : Prog σ) : Prop :=
  ∀ s state dt out, (∀ k a, (k, Val.da a) ∈ state → P k a) → (p s state dt).2 = .ok out →
    ∀ k a, (k, a) ∈ out.1 → Pt k a

theorem progs_kept {σ : Type} {P Pt : String → DataArray → Prop} {p : Prog σ} (hp : GivesKept P Pt p) :
    ProgsRelK (Kept P) (Kept Pt) (fun a b => a = b) p p := by
  intro s state state' dt hs
  obtain ⟨rfl, hs⟩ := statesRel_kept.1 hs
  refine ⟨rfl, ?_⟩
  cases h : (p s state dt).2 with
  | error e => rfl
  | ok out => exact ⟨keyRel_kept.2 ⟨rfl, hp s state dt out hs h⟩, dictRel_id⟩

theorem gives_of_progs {σ : Type} {P Pt : String → DataArray → Prop} {p : Prog σ}
    (hp : ProgsRelK (Kept P) (Kept Pt) (fun a b => a = b) p p) : GivesKept P Pt p := by
  intro s state dt out hs h
  have h2 := (hp s state state dt (statesRel_kept.2 ⟨rfl, hs⟩)).2
  rw [h] at h2
  exact (keyRel_kept.1 h2.1).2

section
variable {R : Registry} {P Pt : String → DataArray → Prop}

/-- Runs with each time stepper keep the property. -/
theorem runs_keep (hP : KeptBy P Pt) {σ : Type} {p : Prog σ} (hp : GivesKept P Pt p) (inProps outProps : PropDict)
    (inst : String) (tid : Bool) (s : σ) {state : State} (hs : ∀ k a, (k, Val.da a) ∈ state → P k a) (dt : Int) (n : Nat) :
    (∀ order r, runSteps (tsCall R inProps outProps inst tid (abCall R p)) dt n { order := order } s state = some r →
      ∀ k a, (k, Val.da a) ∈ r.2.2 → P k a) ∧
    (∀ strength alpha r, runSteps (tsCall R inProps outProps inst tid (LF.call R p)) dt n
        { strength := strength, alpha := alpha } s state = some r → ∀ k a, (k, Val.da a) ∈ r.2.2 → P k a) ∧
    (∀ three r, runSteps (tsCall R inProps outProps inst tid (sspCall R p three)) dt n { order := 1 } s state = some r →
      ∀ k a, (k, Val.da a) ∈ r.2.2 → P k a) := by
  obtain ⟨h1, h2, h3⟩ := runs_keyed (R := R) hP.stand (progs_kept hp) inProps outProps inst tid s
    (statesRel_kept.2 ⟨rfl, hs⟩) dt n
  refine ⟨fun order r h => ?_, fun strength alpha r h => ?_, fun three r h => ?_⟩
  · have := h1 order; rw [h] at this; exact (statesRel_kept.1 this.2.2).2
  · have := h2 strength alpha; rw [h] at this; exact (statesRel_kept.1 this.2.2).2
  · have := h3 three; rw [h] at this; exact (statesRel_kept.1 this.2.2).2

/-- Composites of components whose tendencies have the property. -/
theorem composite_keeps (hP : KeptBy P Pt) {σ : Type} {cs : List (Comp σ)}
    (hc : ∀ c ∈ cs, GivesKept P Pt (fun s state dt => implicitCall c state dt s)) :
    GivesKept P Pt (fun s state dt => callImplicitComposite R cs s state dt) := by
  refine gives_of_progs (composite_keyed (R := R) hP.stand ?_)
  induction cs with
  | nil => exact .nil
  | cons c l ih => exact .cons (progs_kept (hc c List.mem_cons_self)) (ih fun c h => hc c (List.mem_cons_of_mem _ h))

end

/-! ## Dimensions -/

theorem fits_kept (L : String → Nat) (D E : String → List String) :
    KeptBy (fun k => Fits L (D k) (E k)) (fun k => Within L (D k) (E k)) where
  map := fun h _ _ => h
  setAttrs := fun h _ => h
  mapT := fun h _ _ => h
  setAttrsT := fun h _ => h
  binopSS := by
    rintro k a b c f ⟨ha, ex, hd, he⟩ ⟨hb, ex', hd', he'⟩ h
    obtain ⟨c', h1, h2, h3⟩ := sized_binop ha hb f
    rw [h1] at h; cases h
    refine ⟨h2, ex ++ b.dims.filter (fun d => d ∉ a.dims), by rw [h3, hd, List.append_assoc], fun d hm => ?_⟩
    rcases List.mem_append.1 hm with hm | hm
    · exact he d hm
    · simp only [List.mem_filter, decide_eq_true_eq, hd, hd', List.mem_append, not_or] at hm
      exact he' d (hm.1.resolve_left hm.2.1)
  binopST := by
    rintro k a b c f ⟨ha, ex, hd, he⟩ ⟨hb, hb'⟩ h
    obtain ⟨c', h1, h2, h3⟩ := sized_binop ha hb f
    rw [h1] at h; cases h
    refine ⟨h2, ex ++ b.dims.filter (fun d => d ∉ a.dims), by rw [h3, hd, List.append_assoc], fun d hm => ?_⟩
    rcases List.mem_append.1 hm with hm | hm
    · exact he d hm
    · simp only [List.mem_filter, decide_eq_true_eq, hd, List.mem_append, not_or] at hm
      exact (hb' d hm.1).resolve_left hm.2.1
  binopTT := by
    rintro k a b c f ⟨ha, ha'⟩ ⟨hb, hb'⟩ h
    obtain ⟨c', h1, h2, h3⟩ := sized_binop ha hb f
    rw [h1] at h; cases h
    refine ⟨h2, fun d hm => ?_⟩
    rw [h3] at hm
    rcases List.mem_append.1 hm with hm | hm
    · exact ha' d hm
    · exact hb' d (List.mem_filter.1 hm).1

section
variable {R : Registry} {L : String → Nat} {D E : String → List String}

/-- **C96.**  Runs of any number of steps with each time stepper: if every quantity has its
dimensions at the start and the tendencies of `k` have dimensions among `D k` and `E k`, in
any order, then at the end every quantity `k` has the dimensions `D k`, in that order, and
after them only dimensions of `E k`, and all of them have the length they had. -/
theorem run_keeps_dims {σ : Type} {p : Prog σ} (hp : GivesWithin L D E p) (inProps outProps : PropDict)
    (inst : String) (tid : Bool) (s : σ) {state : State} (hs : AllFit L D E state) (dt : Int) (n : Nat) :
    (∀ order r, runSteps (tsCall R inProps outProps inst tid (abCall R p)) dt n { order := order } s state = some r →
      AllFit L D E r.2.2) ∧
    (∀ strength alpha r, runSteps (tsCall R inProps outProps inst tid (LF.call R p)) dt n
        { strength := strength, alpha := alpha } s state = some r → AllFit L D E r.2.2) ∧
    (∀ three r, runSteps (tsCall R inProps outProps inst tid (sspCall R p three)) dt n { order := 1 } s state = some r →
      AllFit L D E r.2.2) :=
  runs_keep (fits_kept L D E) hp inProps outProps inst tid s hs dt n

/-- **C96.**  If the tendencies of each quantity have no dimension that the quantity does not
have, then at the end of a run every quantity has exactly the dimensions and the shape it had. -/
theorem run_keeps_shape {σ : Type} {p : Prog σ} (hp : GivesWithin L D (fun _ => []) p) (inProps outProps : PropDict)
    (inst : String) (tid : Bool) (s : σ) {state : State} (hs : AllFit L D (fun _ => []) state) (dt : Int) (n : Nat) :
    (∀ order r, runSteps (tsCall R inProps outProps inst tid (abCall R p)) dt n { order := order } s state = some r →
      ∀ k a, Dict.get? r.2.2 k = some (Val.da a) → a.dims = D k ∧ a.arr.shape = (D k).map L) ∧
    (∀ strength alpha r, runSteps (tsCall R inProps outProps inst tid (LF.call R p)) dt n
        { strength := strength, alpha := alpha } s state = some r →
      ∀ k a, Dict.get? r.2.2 k = some (Val.da a) → a.dims = D k ∧ a.arr.shape = (D k).map L) ∧
    (∀ three r, runSteps (tsCall R inProps outProps inst tid (sspCall R p three)) dt n { order := 1 } s state = some r →
      ∀ k a, Dict.get? r.2.2 k = some (Val.da a) → a.dims = D k ∧ a.arr.shape = (D k).map L) := by
  have key : ∀ st : State, AllFit L D (fun _ => []) st →
      ∀ k a, Dict.get? st k = some (Val.da a) → a.dims = D k ∧ a.arr.shape = (D k).map L := by
    intro st h k a hk
    obtain ⟨h1, ex, h2, h3⟩ := h k a (Dict.mem_of_get? hk)
    have hex : ex = [] := List.eq_nil_iff_forall_not_mem.2 fun d hd => absurd (h3 d hd) (List.not_mem_nil)
    subst hex
    rw [List.append_nil] at h2
    exact ⟨h2, h2 ▸ h1.2⟩
  obtain ⟨h1, h2, h3⟩ := run_keeps_dims (R := R) hp inProps outProps inst tid s hs dt n
  exact ⟨fun o r h => key _ (h1 o r h), fun a b r h => key _ (h2 a b r h), fun t r h => key _ (h3 t r h)⟩

/-- **C96.**  A composite of components that respect the dimensions does. -/
theorem composite_keeps_dims {σ : Type} {cs : List (Comp σ)}
    (hc : ∀ c ∈ cs, GivesWithin L D E (fun s state dt => implicitCall c state dt s)) :
    GivesWithin L D E (fun s state dt => callImplicitComposite R cs s state dt) :=
  composite_keeps (fits_kept L D E) hc

theorem AllFit.wf {state : State} (h : AllFit L D E state) : state.WF := by
  intro k a hk
  obtain ⟨h1, -⟩ := h k a (Dict.mem_of_get? hk)
  exact ⟨by rw [h1.2, List.length_map], h1.1⟩

theorem AllFit.mem {state : State} (h : AllFit L D E state) {k : String} {a : DataArray}
    (hk : Dict.get? state k = some (.da a)) {d : String} (hd : d ∈ a.dims) : d ∈ D k ∨ d ∈ E k := by
  obtain ⟨-, ex, h2, h3⟩ := h k a (Dict.mem_of_get? hk)
  rw [h2] at hd
  exact (List.mem_append.1 hd).imp_right (h3 d)

theorem AllFit.has {state : State} (h : AllFit L D E state) {k : String} {a : DataArray}
    (hk : Dict.get? state k = some (.da a)) {d : String} (hd : d ∈ D k) : d ∈ a.dims := by
  obtain ⟨-, ex, h2, h3⟩ := h k a (Dict.mem_of_get? hk)
  rw [h2]
  exact List.mem_append_left _ hd

/-- What is used of the dimensions of the quantities of a state: not their order. -/
structure DimsAmong (L : String → Nat) (D E : String → List String) (state : State) : Prop where
  sized : ∀ k a, Dict.get? state k = some (.da a) → a.Sized L
  mem : ∀ k a, Dict.get? state k = some (.da a) → ∀ d ∈ a.dims, d ∈ D k ∨ d ∈ E k
  has : ∀ k a, Dict.get? state k = some (.da a) → ∀ d ∈ D k, d ∈ a.dims

theorem DimsAmong.wf {state : State} (h : DimsAmong L D E state) : state.WF := by
  intro k a hk
  have h1 := h.sized k a hk
  exact ⟨by rw [h1.2, List.length_map], h1.1⟩

theorem AllFit.among {state : State} (h : AllFit L D E state) : DimsAmong L D E state where
  sized := fun k a hk => (h k a (Dict.mem_of_get? hk)).1
  mem := fun _ _ hk _ hd => h.mem hk hd
  has := fun _ _ hk _ hd => h.has hk hd

theorem shape_of_lengths {L : String → Nat} {dims : List String} {shape : List Nat} (hl : dims.length = shape.length)
    (h : ∀ d n, (d, n) ∈ dims.zip shape → n = L d) : shape = dims.map L := by
  induction dims generalizing shape with
  | nil => cases shape with
    | nil => rfl
    | cons n l => simp at hl
  | cons d dims ih =>
    cases shape with
    | nil => simp at hl
    | cons n l =>
      rw [List.map_cons, h d n (by simp), ← ih (shape := l) (by simpa using hl) fun d n hm => h d n (by simp [hm])]

theorem outDims_suit {inProps : PropDict} {state : State} (hs : DimsAmong L D E state)
    (hin : ∀ q ∈ inProps, ∃ dims a, q.2.dims = some dims ∧ Dict.get? state q.1 = some (.da a))
    {k : String} {dims : List String} (hd : DimsSuit inProps D E k dims) :
    (outDimsSpec dims (wildSpec (requested state inProps))).Nodup ∧
    (∀ d ∈ outDimsSpec dims (wildSpec (requested state inProps)), d ∈ D k ∨ d ∈ E k) ∧
    ∀ d ∈ outDimsSpec dims (wildSpec (requested state inProps)), ∃ q ∈ requested state inProps, d ∈ q.1.dims := by
  have hw : ∀ d ∈ wildSpec (requested state inProps), ∃ kv ∈ inProps, ∃ ds a, kv.2.dims = some ds ∧
      Dict.get? state kv.1 = some (.da a) ∧ d ∈ a.dims ∧ d ∉ ds := by
    intro d hm
    unfold wildSpec at hm
    rw [List.mem_eraseDups] at hm
    obtain ⟨q, hq, hm⟩ := List.mem_flatMap.1 hm
    obtain ⟨kv, hkv, h1, h2⟩ := mem_requested.1 hq
    obtain ⟨h3, h4⟩ := List.mem_filter.1 hm
    exact ⟨kv, hkv, q.2, q.1, h2, h1, h3, by simpa using h4⟩
  have hout : ∀ d ∈ outDimsSpec dims (wildSpec (requested state inProps)),
      (d ∈ dims ∧ d ≠ "*") ∨ ("*" ∈ dims ∧ d ∈ wildSpec (requested state inProps)) := by
    intro d hm
    obtain ⟨e, he, hm⟩ := List.mem_flatMap.1 hm
    by_cases h : e = "*"
    · subst h; rw [if_pos rfl] at hm; exact Or.inr ⟨he, hm⟩
    · rw [if_neg h] at hm
      rw [List.mem_singleton] at hm
      subst hm
      exact Or.inl ⟨he, h⟩
  refine ⟨?_, fun d hm => ?_, fun d hm => ?_⟩
  · unfold outDimsSpec
    rw [List.nodup_flatMap]
    refine ⟨fun d _ => ?_, hd.nodup.imp_of_mem ?_⟩
    · split
      · exact nodup_eraseDups _
      · exact List.nodup_singleton _
    · intro a b ha hb hab
      show List.Disjoint _ _
      intro x h1 h2
      dsimp only at h1 h2
      have key : ∀ c ∈ dims, c ≠ "*" → c ∉ wildSpec (requested state inProps) := by
        intro c hc hne hcw
        obtain ⟨kv, hkv, ds, e, h3, h4, h5, h6⟩ := hw c hcw
        exact h6 (hd.listed c hc hne kv hkv ds h3 (hs.mem _ _ h4 _ h5))
      by_cases h3 : a = "*"
      · rw [if_pos h3] at h1
        rw [if_neg (fun h => hab (h3.trans h.symm)), List.mem_singleton] at h2
        exact key b hb (fun h => hab (h3.trans h.symm)) (h2 ▸ h1)
      · rw [if_neg h3, List.mem_singleton] at h1
        by_cases h4 : b = "*"
        · rw [if_pos h4] at h2
          exact key a ha h3 (h1 ▸ h2)
        · rw [if_neg h4, List.mem_singleton] at h2
          exact hab (h1.symm.trans h2)
  · rcases hout d hm with ⟨h1, h2⟩ | ⟨h1, h2⟩
    · exact hd.own d h1 h2
    · obtain ⟨kv, hkv, ds, e, h3, h4, h5, h6⟩ := hw d h2
      exact hd.matched h1 kv hkv ds h3 d (hs.mem _ _ h4 _ h5) h6
  · rcases hout d hm with ⟨h1, h2⟩ | ⟨h1, h2⟩
    · obtain ⟨kv, hkv, h3⟩ := hd.known d h1 h2
      obtain ⟨ds, a, h4, h5⟩ := hin kv hkv
      exact ⟨(a, ds), mem_requested.2 ⟨kv, hkv, h5, h4⟩, hs.has _ _ h5 _ h3⟩
    · obtain ⟨kv, hkv, ds, e, h3, h4, h5, h6⟩ := hw d h2
      exact ⟨(e, ds), mem_requested.2 ⟨kv, hkv, h4, h3⟩, h5⟩

theorem restored_within {raw : Dict NDArray} {outProps inProps : PropDict} {state : State} (hs : DimsAmong L D E state)
    (hn : outProps.keys.Nodup)
    (hd : ∀ kv ∈ outProps, ∀ dims, effDims inProps kv.1 kv.2 = some dims → DimsSuit inProps D E kv.1 dims)
    {out : Dict DataArray} (h : restoreDataArrays raw outProps state inProps [] false = .ok out) {k : String} {a : DataArray}
    (hk : (k, a) ∈ out) : Within L (D k) (E k) a := by
  have hin : ∀ q ∈ inProps, ∃ dims a, q.2.dims = some dims ∧ Dict.get? state q.1 = some (.da a) := by
    have h' := h
    unfold restoreDataArrays at h'
    obtain ⟨wl, hw, -⟩ := Exc.bind_ok_iff.1 h'
    intro q hq
    obtain ⟨dims, units, a, h1, -, h2, -⟩ := (getWildcard_ok hs.wf hw).1.entry q hq
    exact ⟨dims, a, h1, h2⟩
  obtain ⟨h1, h2⟩ := restored_outputs_carry_state_dims raw outProps state inProps [] false out hs.wf hn
    (fun kv hkv d he => List.nodup_iff_count_le_one.1 (hd kv hkv d he).nodup _) h
  have hg := Dict.get?_of_mem (restore_nodup h) hk
  obtain ⟨hko, -, -⟩ := (h1 k).1 (Dict.mem_keys_of_get? hg)
  obtain ⟨p, hp⟩ := Dict.get?_of_mem_keys hko
  obtain ⟨dims, units, da, h3, -, h4, h5, -, h6, h7⟩ := h2 (k, p) (Dict.mem_of_get? hp) (by simp) (by simp)
  rw [h4] at hg
  cases hg
  obtain ⟨h8, h9, h10⟩ := outDims_suit hs hin (hd (k, p) (Dict.mem_of_get? hp) dims h3)
  rw [← h5] at h8 h9 h10
  refine ⟨⟨h8, shape_of_lengths h6 fun d n hm => ?_⟩, h9⟩
  obtain ⟨q, hq, hdq⟩ := h10 d (List.of_mem_zip hm).1
  obtain ⟨kv, -, h11, -⟩ := mem_requested.1 hq
  rw [h7 d n hm q hq hdq]
  exact len_of_sized (hs.sized kv.1 q.1 h11) hdq

/-- **C96.**  The condition on the components in terms of what they declare: a component
without tracers, whatever its `array_call` does, if the dimensions declared for each tendency
suit the quantities. -/
theorem component_keeps_dims {σ : Type} (g : Tracers) (c : Class) (i : Inst) (hi : i.packer = none)
    (hn : c.outProps.keys.Nodup)
    (hd : ∀ kv ∈ c.outProps, ∀ dims, effDims c.inProps kv.1 kv.2 = some dims → DimsSuit c.inProps D E kv.1 dims)
    (arrayCall : σ → RawState → σ × Except Err (Dict NDArray × Dict NDArray)) :
    GivesWithin L D E (fun s state _ => callTendency R g c i arrayCall s state) := by
  intro s state dt out hs h k a hk
  dsimp only at h
  unfold callTendency at h
  cases hp : prepare R g c i state with
  | error e => rw [hp] at h; cases h
  | ok raw =>
    rw [hp] at h
    dsimp only at h
    obtain ⟨r, -, h⟩ := Exc.bind_ok_iff.1 h
    unfold finishTendency takeTracers at h
    rw [hi] at h
    obtain ⟨tr, htr, h⟩ := Exc.bind_ok_iff.1 h
    cases htr
    obtain ⟨_, -, h⟩ := Exc.bind_ok_iff.1 h
    obtain ⟨_, -, h⟩ := Exc.bind_ok_iff.1 h
    obtain ⟨tend, ht, h⟩ := Exc.bind_ok_iff.1 h
    obtain ⟨diag, -, h⟩ := Exc.bind_ok_iff.1 h
    cases h
    have hnd := restore_nodup ht
    have hu : Dict.get? (Dict.update [] tend) k = some a :=
      Dict.get?_of_mem (Dict.nodup_keys_update (d := []) (by simp) tend) hk
    rw [Dict.get?_update _ _ hnd] at hu
    have : tend.get? k = some a := by simpa using hu
    exact restored_within hs.among hn hd ht (Dict.mem_of_get? this)

end

namespace Demo

/-- Reads `T` in columns along `z` and cools it; the tendency has the axes in another order. -/
def coolCls : Class :=
  { kind := .tendency
    inProps := [("T", { dims := some ["*", "z"], units := some "K" })]
    outProps := [("T", { dims := some ["z", "*"], units := some "K s^-1" })]
    diagProps := [] }

def coolCall : Unit → RawState → Unit × Except Err (Dict NDArray × Dict NDArray) :=
  fun u _ => (u, .ok ([("T", ⟨[3, 4], fun i => -(i.getD 0 0 : Nat)⟩)], []))

def coolProg : Prog Unit := fun u state _ =>
  callTendency reg {} coolCls { name := "Cool", tid := false, ignored := [], packer := none } coolCall u state

def gridLen : String → Nat := fun d => if d = "z" then 3 else 2

def gridDims : String → List String := fun k => if k = "T" then ["x", "z", "y"] else []

/-- Warms the single number `T` by what a profile `h` says: `T` becomes a profile. -/
def spreadCls : Class :=
  { kind := .tendency
    inProps := [("h", { dims := some ["z"], units := some "m" })]
    outProps := [("T", { dims := some ["z"], units := some "K s^-1" })]
    diagProps := [] }

def spreadProg : Prog Unit := fun u state _ =>
  callTendency reg {} spreadCls { name := "Spread", tid := false, ignored := [], packer := none }
    (fun u _ => (u, .ok ([("T", ⟨[3], fun i => (i.getD 0 0 : Nat)⟩)], []))) u state

def spreadState : State :=
  [("time", .time 0), ("h", .da { dims := ["z"], arr := ⟨[3], fun _ => 1⟩, attrs := [("units", "m")] }),
   ("T", .da { dims := [], arr := ⟨[], fun _ => 280⟩, attrs := [("units", "K")] })]

def spreadDims : String → List String := fun k => if k = "h" then ["z"] else []

def spreadExtra : String → List String := fun k => if k = "T" then ["z"] else []

/-- Dimensions and shape of `T` at the end of a run. -/
def finalDims {τ : Type} : Option (τ × Unit × State) → Option (List String × List Nat)
  | some (_, _, st) => match Dict.get? st "T" with
    | some (.da a) => some (a.dims, a.arr.shape)
    | _ => none
  | none => none

theorem coolProg_within : GivesWithin gridLen gridDims (fun _ => []) coolProg :=
  component_keeps_dims {} coolCls _ rfl (by decide) (by
    intro kv hkv dims hd
    simp only [coolCls, List.mem_singleton] at hkv
    subst hkv
    cases hd
    exact ⟨by decide, by decide, by decide, by
      intro d hd hne q hq ds hds hm
      simp only [coolCls, List.mem_singleton] at hq
      subst hq
      cases hds
      revert d
      decide, by
      intro _ q hq ds hds d hm _
      simp only [coolCls, List.mem_singleton] at hq
      subst hq
      exact hm⟩) coolCall

/-- C96: a component with a wildcard in its tendency, whose tendency has the axes in another
order than the quantity; three steps with each time stepper. -/
example : AllFit gridLen gridDims (fun _ => []) warm ∧
    finalDims (runSteps (tsCall reg warmProps warmProps "S" false (abCall reg coolProg)) 1000000 3 { order := 2 } () warm) =
      some (["x", "z", "y"], [2, 3, 2]) ∧
    finalDims (runSteps (tsCall reg warmProps warmProps "S" false (LF.call reg coolProg)) 1000000 3 {} () warm) =
      some (["x", "z", "y"], [2, 3, 2]) ∧
    finalDims (runSteps (tsCall reg warmProps warmProps "S" false (sspCall reg coolProg true)) 1000000 3 { order := 1 } ()
      warm) = some (["x", "z", "y"], [2, 3, 2]) := by
  refine ⟨?_, ?_, ?_, ?_⟩
  · intro k a h
    simp only [warm, List.mem_cons, Prod.mk.injEq, reduceCtorEq, and_false, Val.da.injEq, List.not_mem_nil, or_false,
      false_or] at h
    obtain ⟨rfl, rfl⟩ := h
    exact ⟨⟨by decide, by decide⟩, [], by decide, by simp⟩
  · decide +kernel
  · decide +kernel
  · decide +kernel

/-- C96: a quantity gains the dimensions of its tendencies, at the end: a single number
becomes a profile in the first step. -/
example : (∀ kv ∈ spreadCls.outProps, ∀ dims, effDims spreadCls.inProps kv.1 kv.2 = some dims →
      DimsSuit spreadCls.inProps spreadDims spreadExtra kv.1 dims) ∧
    AllFit gridLen spreadDims spreadExtra spreadState ∧
    finalDims (runSteps (tsCall reg spreadCls.inProps warmProps "S" false (abCall reg spreadProg)) 1000000 1
      { order := 1 } () spreadState) = some (["z"], [3]) ∧
    finalDims (runSteps (tsCall reg spreadCls.inProps warmProps "S" false (LF.call reg spreadProg)) 1000000 2
      {} () spreadState) = some (["z"], [3]) := by
  refine ⟨?_, ?_, ?_, ?_⟩
  · intro kv hkv dims hd
    simp only [spreadCls, List.mem_singleton] at hkv
    subst hkv
    cases hd
    exact ⟨by decide, by decide, by decide, by
      intro d hd hne q hq ds hds hm
      simp only [spreadCls, List.mem_singleton] at hq
      subst hq
      cases hds
      exact hd, fun h => absurd h (by decide)⟩
  · intro k a h
    simp only [spreadState, List.mem_cons, Prod.mk.injEq, reduceCtorEq, and_false, Val.da.injEq, List.not_mem_nil, or_false,
      false_or] at h
    rcases h with ⟨rfl, rfl⟩ | ⟨rfl, rfl⟩
    · exact ⟨⟨by decide, by decide⟩, [], by decide, by simp⟩
    · exact ⟨⟨by decide, by decide⟩, [], by decide, by simp⟩
  · decide +kernel
  · decide +kernel

end Demo

end Verif
