import Verif.Spec.Backend
import Verif.Props.StateUnits
/-!
# Calls under a backend and calls with DataArrays correspond (lemmas for C82)
-/

namespace Verif

theorem DictRel.keys {α β : Type} {r : α → β → Prop} {d : Dict α} {e : Dict β} (h : DictRel r d e) :
    d.keys = e.keys := by
  induction h with
  | nil => rfl
  | cons hab _ ih => simp only [Dict.keys_cons, ih, hab.1]

theorem DictRel.get? {α β : Type} {r : α → β → Prop} {d : Dict α} {e : Dict β} (h : DictRel r d e) (k : String) :
    (d.get? k = none ∧ e.get? k = none) ∨ ∃ v w, d.get? k = some v ∧ e.get? k = some w ∧ r v w := by
  induction h with
  | nil => exact .inl ⟨rfl, rfl⟩
  | cons hab hl ih =>
    rename_i a b l l'
    obtain ⟨ka, va⟩ := a
    obtain ⟨kb, vb⟩ := b
    obtain ⟨hk, hv⟩ := hab
    simp only at hk hv
    subst hk
    rw [Dict.get?_cons, Dict.get?_cons]
    by_cases e : ka = k
    · simp only [if_pos e]
      exact .inr ⟨va, vb, rfl, rfl, hv⟩
    · simp only [if_neg e]
      exact ih

theorem DictRel.get {α β : Type} {r : α → β → Prop} {d : Dict α} {e : Dict β} (h : DictRel r d e) (k : String) :
    Exc.Rel r (d.get k) (e.get k) := by
  unfold Dict.get
  rcases h.get? k with ⟨h1, h2⟩ | ⟨v, w, h1, h2, hr⟩
  · rw [h1, h2]; rfl
  · rw [h1, h2]; exact hr

theorem DictRel.set {α β : Type} {r : α → β → Prop} {d : Dict α} {e : Dict β} (h : DictRel r d e) (q : String)
    {v : α} {w : β} (hv : r v w) : DictRel r (d.set q v) (e.set q w) := by
  induction h with
  | nil => exact List.Forall₂.cons ⟨rfl, hv⟩ List.Forall₂.nil
  | cons hab hl ih =>
    rename_i a b l l'
    obtain ⟨ka, va⟩ := a
    obtain ⟨kb, vb⟩ := b
    obtain ⟨hk, hv'⟩ := hab
    simp only at hk hv'
    subst hk
    unfold Dict.set
    by_cases e : ka = q
    · subst e
      simp only [if_true]
      exact List.Forall₂.cons ⟨rfl, hv⟩ hl
    · simp only [if_neg e]
      exact List.Forall₂.cons ⟨rfl, hv'⟩ ih

theorem DictRel.update {α β : Type} {r : α → β → Prop} {d : Dict α} {e : Dict β} {d' : Dict α} {e' : Dict β}
    (h : DictRel r d e) (h' : DictRel r d' e') : DictRel r (d.update d') (e.update e') := by
  induction h' generalizing d e with
  | nil => exact h
  | cons hab hl ih =>
    rename_i a b l l'
    obtain ⟨ka, va⟩ := a
    obtain ⟨kb, vb⟩ := b
    obtain ⟨hk, hv'⟩ := hab
    simp only at hk hv'
    subst hk
    rw [Dict.update_cons, Dict.update_cons]
    exact ih (h.set ka hv')

theorem Exc.Rel.eq {α : Type} {x y : Except Err α} (h : Exc.Rel (fun a b => a = b) x y) : x = y := by
  cases x <;> cases y
  · rw [show _ = _ from h]
  · exact h.elim
  · exact h.elim
  · rw [show _ = _ from h]

theorem Exc.Rel.of_eq {α : Type} {x y : Except Err α} (h : x = y) : Exc.Rel (fun a b => a = b) x y := by
  subst h
  cases x <;> rfl

variable {R : Registry} {V : Type} {B : Backend V} {rep : V → Val → Prop}

/-- The dims and the shape of an entry, as read by the wildcard functions. -/
theorem Implements.entry (hB : Implements R B rep) {state : Dict V} {state' : State} (hs : DictRel rep state state')
    (name : String) {γ : Type} (f : List String → List Nat → Except Err γ) :
    (state.get name >>= fun v => B.dims v >>= fun d => B.shape v >>= fun s => f d s) =
      (State.da state' name >>= fun a => f a.dims a.arr.shape) := by
  unfold Dict.get State.da
  rcases hs.get? name with ⟨h1, h2⟩ | ⟨v, w, h1, h2, hr⟩
  · rw [h1, h2]; rfl
  · rw [h1, h2]
    cases w with
    | da a => simp only [Exc.ok_bind, hB.dims v a hr, hB.shape v a hr]
    | time t => simp only [Exc.ok_bind, hB.timeDims v t hr]; rfl

theorem Implements.arrayEntry (hB : Implements R B rep) {state : Dict V} {state' : State} (hs : DictRel rep state state')
    (name n u : String) (ds : List String) (lens : Dict Nat) :
    (state.get name >>= fun v => B.getArray v n u ds lens) =
      (State.da state' name >>= fun a => getArray R a u ds lens) := by
  unfold Dict.get State.da
  rcases hs.get? name with ⟨h1, h2⟩ | ⟨v, w, h1, h2, hr⟩
  · rw [h1, h2]; rfl
  · rw [h1, h2]
    cases w with
    | da a => simp only [Exc.ok_bind, hB.array v a hr]
    | time t => simp only [Exc.ok_bind, hB.timeArray v t hr]; rfl

theorem matchLoopB_eq (hB : Implements R B rep) {state : Dict V} {state' : State} (hs : DictRel rep state state')
    (props : PropDict) (wild : List String) (lens : Dict Nat) :
    matchLoopB B state props wild lens = matchLoop state' props wild lens := by
  induction props generalizing wild lens with
  | nil => rfl
  | cons kv rest ih =>
    obtain ⟨name, p⟩ := kv
    unfold matchLoopB matchLoop
    congr 1
    funext du
    refine (hB.entry hs name _).trans ?_
    simp only [ih]

theorem getWildcardB_eq (hB : Implements R B rep) {state : Dict V} {state' : State} (hs : DictRel rep state state')
    (props : PropDict) : getWildcardB B state props = getWildcard state' props := by
  unfold getWildcardB getWildcard
  rw [matchLoopB_eq hB hs]

theorem rawInputB_eq (hB : Implements R B rep) {state : Dict V} {state' : State} (hs : DictRel rep state state')
    (wild : List String) (lens : Dict Nat) (name : String) (p : QProps) :
    rawInputB B state wild lens name p = rawInput R state' wild lens name p := by
  unfold rawInputB rawInput
  congr 1
  funext du
  by_cases hst : "*" ∈ du.1
  · simp only [if_pos hst]
    have := hB.arrayEntry hs name name du.2 (du.1.take (du.1.idxOf "*") ++ wild ++ du.1.drop (du.1.idxOf "*" + 1)) lens
    calc _ = ((state.get name >>= fun v => B.getArray v name du.2
          (du.1.take (du.1.idxOf "*") ++ wild ++ du.1.drop (du.1.idxOf "*" + 1)) lens) >>= fun arr =>
            flattenWildcardDims arr (du.1.idxOf "*") (du.1.idxOf "*" + wild.length)) >>= fun arr =>
            .ok (p.aliasName.getD name, arr) := by
          cases state.get name <;> rfl
      _ = _ := by
          rw [this]
          cases State.da state' name <;> rfl
  · simp only [if_neg hst]
    have := hB.arrayEntry hs name name du.2 du.1 lens
    calc _ = (state.get name >>= fun v => B.getArray v name du.2 du.1 lens) >>= fun arr =>
            .ok (p.aliasName.getD name, arr) := by
          cases state.get name <;> rfl
      _ = _ := by
          rw [this]
          cases State.da state' name <;> rfl

theorem rawInputsB_eq (hB : Implements R B rep) {state : Dict V} {state' : State} (hs : DictRel rep state state')
    (wild : List String) (lens : Dict Nat) (props : PropDict) (out : Dict NDArray) :
    rawInputsB B state wild lens props out = rawInputs R state' wild lens props out := by
  induction props generalizing out with
  | nil => rfl
  | cons kv rest ih =>
    obtain ⟨name, p⟩ := kv
    unfold rawInputsB rawInputs
    rw [rawInputB_eq hB hs]
    simp only [ih]

theorem getNumpyArraysB_eq (hB : Implements R B rep) {state : Dict V} {state' : State} (hs : DictRel rep state state')
    (props : PropDict) : getNumpyArraysB B state props = getNumpyArrays R state' props := by
  unfold getNumpyArraysB getNumpyArrays
  rw [getWildcardB_eq hB hs]
  simp only [rawInputsB_eq hB hs]

theorem restoreOneB_rel (hB : Implements R B rep) {state : Dict V} {state' : State} (hs : DictRel rep state state')
    (raw : Dict NDArray) (outProps inProps : PropDict) (wild : Option (List String)) (lens : Dict Nat)
    (name : String) (outDims : List String) :
    Exc.Rel (fun r r' => RepQ rep r.1 r'.1 ∧ r.2 = r'.2)
      (restoreOneB B raw outProps inProps state wild lens name outDims)
      (restoreOne raw outProps inProps wild lens name outDims) := by
  unfold restoreOneB restoreOne
  refine (Exc.Rel.of_eq rfl).bind (fun a b hab => ?_)
  subst hab
  refine (Exc.Rel.of_eq rfl).bind (fun r r' hr => ?_)
  subst hr
  cases hu : (outProps.get? name).bind (·.units) with
  | none => simp only; rfl
  | some u =>
    simp only
    exact (hB.create r.2.1 name u r.1 state state' hs).bind (fun v a hva => ⟨hva, rfl⟩)

theorem restoreLoopB_rel (hB : Implements R B rep) {state : Dict V} {state' : State} (hs : DictRel rep state state')
    (raw : Dict NDArray) (outProps inProps : PropDict) (wild : Option (List String)) (ignore : List String)
    (dimsOf : Dict (List String)) (lens : Dict Nat) {out : Dict V} {out' : Dict DataArray}
    (ho : DictRel (RepQ rep) out out') :
    Exc.Rel (DictRel (RepQ rep)) (restoreLoopB B raw outProps inProps state wild ignore dimsOf lens out)
      (restoreLoop raw outProps inProps wild ignore dimsOf lens out') := by
  induction dimsOf generalizing lens out out' with
  | nil => exact ho
  | cons kv rest ih =>
    obtain ⟨name, d⟩ := kv
    unfold restoreLoopB restoreLoop
    split
    · exact ih lens ho
    · refine (restoreOneB_rel hB hs raw outProps inProps wild lens name d).bind (fun r r' hr => ?_)
      rw [hr.2]
      exact ih r'.2 (ho.set name hr.1)

theorem restoreB_rel (hB : Implements R B rep) {state : Dict V} {state' : State} (hs : DictRel rep state state')
    (raw : Dict NDArray) (outProps inProps : PropDict) (ignore : List String) (miss : Bool) :
    Exc.Rel (DictRel (RepQ rep)) (restoreB B raw outProps state inProps ignore miss)
      (restoreDataArrays raw outProps state' inProps ignore miss) := by
  unfold restoreB restoreDataArrays
  refine (Exc.Rel.of_eq (getWildcardB_eq hB hs inProps)).bind (fun w w' hw => ?_)
  subst hw
  refine (Exc.Rel.of_eq rfl).bind (fun d d' hd => ?_)
  subst hd
  exact restoreLoopB_rel hB hs _ _ _ _ _ _ _ List.Forall₂.nil

theorem packB_eq (hB : Implements R B rep) {state : Dict V} {state' : State} (hs : DictRel rep state state')
    (g : Tracers) (p : Packer) : packB B g p state = p.pack R g state' := by
  unfold packB Packer.pack
  simp only [getNumpyArraysB_eq hB hs]
  rfl

theorem unpackB_rel (hB : Implements R B rep) {state : Dict V} {state' : State} (hs : DictRel rep state state')
    (g : Tracers) (p : Packer) (arr : NDArray) (m : String) :
    Exc.Rel (DictRel (RepQ rep)) (unpackB B g p arr state m) (p.unpack g arr state' m) := by
  unfold unpackB Packer.unpack
  refine (Exc.Rel.of_eq rfl).bind (fun d d' hd => ?_)
  subst hd
  refine (Exc.Rel.of_eq rfl).bind (fun r r' hr => ?_)
  subst hr
  exact restoreB_rel hB hs _ _ _ _ _

theorem prepareB_rel (hB : Implements R B rep) {state : Dict V} {state' : State} (hs : DictRel rep state state')
    (g : Tracers) (c : Class) (i : Inst) :
    Exc.Rel (RepRaw rep) (prepareB B g c i state) (prepare R g c i state') := by
  unfold prepareB prepare checkInputs
  rw [hs.keys, getNumpyArraysB_eq hB hs]
  refine (Exc.Rel.of_eq rfl).bind (fun _ _ _ => ?_)
  refine (Exc.Rel.of_eq rfl).bind (fun raw raw' hraw => ?_)
  subst hraw
  refine Exc.Rel.bind (P := fun a b => a = b) (Exc.Rel.of_eq ?_) (fun a b hab => ?_)
  · cases i.packer with
    | none => rfl
    | some p => simp only [packB_eq hB hs]
  · subst hab
    exact (hs.get "time").bind (fun t t' ht => ⟨rfl, ht⟩)

theorem takeTracersB_rel (hB : Implements R B rep) {state : Dict V} {state' : State} (hs : DictRel rep state state')
    (g : Tracers) (i : Inst) (raw : Dict NDArray) (m : String) :
    Exc.Rel (fun x y => DictRel (RepQ rep) x.1 y.1 ∧ x.2 = y.2) (takeTracersB B g i raw state m)
      (takeTracers g i raw state' m) := by
  unfold takeTracersB takeTracers
  cases i.packer with
  | none => exact ⟨List.Forall₂.nil, rfl⟩
  | some p =>
    simp only
    refine (Exc.Rel.of_eq rfl).bind (fun t t' ht => ?_)
    subst ht
    exact (unpackB_rel hB hs g p t m).bind (fun o o' ho => ⟨ho, rfl⟩)

theorem insertTendenciesB_rel (inst : String) {t : Dict V} {t' : Dict DataArray} (ht : DictRel (RepQ rep) t t')
    {d : Dict V} {d' : Dict DataArray} (hd : DictRel (RepQ rep) d d') :
    DictRel (RepQ rep) (insertTendenciesB inst t d) (insertTendencies inst t' d') := by
  induction ht generalizing d d' with
  | nil => exact hd
  | cons hab hl ih =>
    rename_i a b l l'
    obtain ⟨ka, va⟩ := a
    obtain ⟨kb, vb⟩ := b
    obtain ⟨hk, hv'⟩ := hab
    simp only at hk hv'
    subst hk
    unfold insertTendenciesB insertTendencies
    exact ih (hd.set _ hv')

theorem finishTendencyB_rel (hB : Implements R B rep) {state : Dict V} {state' : State} (hs : DictRel rep state state')
    (g : Tracers) (c : Class) (i : Inst) (rawT rawD : Dict NDArray) :
    Exc.Rel (RepPair rep) (finishTendencyB B g c i state rawT rawD) (finishTendency g c i state' rawT rawD) := by
  unfold finishTendencyB finishTendency
  refine (takeTracersB_rel hB hs g i rawT _).bind (fun tr tr' htr => ?_)
  rw [htr.2]
  refine (Exc.Rel.of_eq rfl).bind (fun _ _ _ => ?_)
  refine (Exc.Rel.of_eq rfl).bind (fun _ _ _ => ?_)
  refine (restoreB_rel hB hs _ _ _ _ _).bind (fun t t' ht => ?_)
  refine (restoreB_rel hB hs _ _ _ _ _).bind (fun d d' hd => ?_)
  refine ⟨htr.1.update ht, ?_⟩
  simp only
  split
  · exact insertTendenciesB_rel _ (htr.1.update ht) hd
  · exact hd

theorem finishStepperB_rel (hB : Implements R B rep) {state : Dict V} {state' : State} (hs : DictRel rep state state')
    (g : Tracers) (c : Class) (i : Inst) (dt : Int) (rawS rawD rawN : Dict NDArray) :
    Exc.Rel (RepPair rep) (finishStepperB B g c i state dt rawS rawD rawN)
      (finishStepper g c i state' dt rawS rawD rawN) := by
  unfold finishStepperB finishStepper
  refine (takeTracersB_rel hB hs g i rawN _).bind (fun tr tr' htr => ?_)
  rw [htr.2]
  refine (Exc.Rel.of_eq rfl).bind (fun _ _ _ => ?_)
  refine (Exc.Rel.of_eq rfl).bind (fun _ _ _ => ?_)
  refine (Exc.Rel.of_eq rfl).bind (fun x y hxy => ?_)
  subst hxy
  refine (restoreB_rel hB hs _ _ _ _ _).bind (fun t t' ht => ?_)
  refine (restoreB_rel hB hs _ _ _ _ _).bind (fun d d' hd => ?_)
  exact ⟨ht, htr.1.update hd⟩

theorem finishDiagnosticB_rel (hB : Implements R B rep) {state : Dict V} {state' : State} (hs : DictRel rep state state')
    (c : Class) (i : Inst) (rawD : Dict NDArray) :
    Exc.Rel (DictRel (RepQ rep)) (finishDiagnosticB B c i state rawD) (finishDiagnostic c i state' rawD) := by
  unfold finishDiagnosticB finishDiagnostic
  refine (Exc.Rel.of_eq rfl).bind (fun _ _ _ => ?_)
  exact restoreB_rel hB hs _ _ _ _ _

/-! ## Composites and time steppers -/

theorem addEntryB_rel (hB : Implements R B rep) {O : ContainerOps V} (hO : Mimics R O rep) {w v : V} {a b : DataArray}
    (hw : RepQ rep w a) (hv : RepQ rep v b) :
    Exc.Rel (RepQ rep) (addEntryB B O w v)
      (match a.attrs.get? "units", b.attrs.get? "units" with
       | some u, some _ => b.toUnits R u >>= fun b' => a.add b'
       | _, _ => .error .invalidState) := by
  unfold addEntryB
  simp only [hB.container w a hw, hB.container v b hv, Bool.and_self, if_true, hO.attrs w a hw, hO.attrs v b hv,
    Exc.ok_bind]
  cases ha : a.attrs.get? "units" with
  | none => simp only; rfl
  | some u =>
    cases hb : b.attrs.get? "units" with
    | none => simp only; rfl
    | some u' =>
      simp only
      have h1 := hO.toUnits v b hv u
      cases hx : O.toUnits v u with
      | error e =>
        rw [hx] at h1
        cases hy : b.toUnits R u with
        | ok y => rw [hy] at h1; exact h1.elim
        | error f =>
          rw [hy] at h1
          have : e = f := h1
          subst this
          cases e <;> rfl
      | ok x =>
        rw [hx] at h1
        cases hy : b.toUnits R u with
        | error y => rw [hy] at h1; exact h1.elim
        | ok y =>
          rw [hy] at h1
          have h2 := hO.iadd w x a y hw h1
          have h3 := hO.add w x a y hw h1
          simp only [Exc.ok_bind]
          unfold DataArray.iadd at h2
          by_cases hd : ∀ d ∈ y.dims, d ∈ a.dims
          · rw [if_pos hd] at h2
            cases hi : O.iadd w x with
            | ok z => rw [hi] at h2; exact h2
            | error e =>
              rw [hi] at h2
              cases e <;> first | exact h2 | exact h3
          · rw [if_neg hd] at h2
            cases hi : O.iadd w x with
            | ok z => rw [hi] at h2; exact h2.elim
            | error e =>
              rw [hi] at h2
              have : e = .valueError := h2
              subst this
              exact h3

theorem addIntoB_rel (hB : Implements R B rep) {O : ContainerOps V} (hO : Mimics R O rep) {d2 : Dict V}
    {d2' : Dict DataArray} (h2 : DictRel (RepQ rep) d2 d2') {d1 : Dict V} {d1' : Dict DataArray}
    (h1 : DictRel (RepQ rep) d1 d1') :
    Exc.Rel (DictRel (RepQ rep)) (addIntoB B O d2 d1) (addInto R d2' d1') := by
  induction h2 generalizing d1 d1' with
  | nil => exact h1
  | cons hab hl ih =>
    rename_i a b l l'
    obtain ⟨ka, va⟩ := a
    obtain ⟨kb, vb⟩ := b
    obtain ⟨hk, hv'⟩ := hab
    simp only at hk hv'
    subst hk
    unfold addIntoB addInto
    rcases h1.get? ka with ⟨g1, g2⟩ | ⟨v, w, g1, g2, hr⟩
    · rw [g1, g2]
      simp only
      refine Exc.Rel.bind (P := RepQ rep) (y := .ok vb) (hO.copy va vb hv') (fun v v' hv => ih (h1.set ka hv))
    · rw [g1, g2]
      simp only
      have hE := addEntryB_rel hB hO hr hv'
      cases hu : w.attrs.get? "units" with
      | none =>
        rw [hu] at hE
        simp only at hE ⊢
        exact Exc.Rel.bind (f := fun s => addIntoB B O l (d1.set ka s)) (g := fun s => addInto R l' (d1'.set ka s)) hE
          (fun s s' hs => ih (h1.set ka hs))
      | some u =>
        cases hu' : vb.attrs.get? "units" with
        | none =>
          rw [hu, hu'] at hE
          simp only at hE ⊢
          exact Exc.Rel.bind (f := fun s => addIntoB B O l (d1.set ka s)) (g := fun s => addInto R l' (d1'.set ka s)) hE
            (fun s s' hs => ih (h1.set ka hs))
        | some u' =>
          rw [hu, hu'] at hE
          simp only at hE ⊢
          have := Exc.Rel.bind (f := fun s => addIntoB B O l (d1.set ka s)) (g := fun s => addInto R l' (d1'.set ka s)) hE
            (fun s s' hs => ih (h1.set ka hs))
          revert this
          cases vb.toUnits R u <;> exact id

theorem convertTendencyB_rel (hB : Implements R B rep) {O : ContainerOps V} (hO : Mimics R O rep) {state : Dict V}
    {state' : State} (hs : DictRel rep state state') (q : String) {v : V} {a : DataArray} (hv : RepQ rep v a) :
    Exc.Rel (RepQ rep) (convertTendencyB B O state q v) (convertTendency R state' q a) := by
  unfold convertTendencyB convertTendency
  simp only [hB.container v a hv, if_true, hO.attrs v a hv, Exc.ok_bind]
  cases a.attrs.get? "units" with
  | none => exact hv
  | some u =>
    simp only
    unfold State.da Dict.get
    rcases hs.get? q with ⟨g1, g2⟩ | ⟨x, w, g1, g2, hr⟩
    · rw [g1, g2]; rfl
    · rw [g1, g2]
      cases w with
      | time t => simp only [Exc.ok_bind, hO.timeAttrs x t hr]; rfl
      | da s =>
        simp only [Exc.ok_bind, hO.attrs x s hr]
        cases Dict.get? s.attrs "units" with
        | none => rfl
        | some u => exact hO.toUnits v a hv _

end Verif
