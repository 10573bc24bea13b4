import Verif.Props.CoordsSteppers
/-!
# C89: states whose labels change between calls
-/

namespace Verif

variable {R : Registry}

theorem smul_wf {a : CArray} (h : a.WF) (c : Rat) : (a.smul c).WF := h

theorem smul_distinct {a : CArray} (h : a.Distinct) (c : Rat) : (a.smul c).Distinct := h

/-- A sum of labelled arrays raises ValueError or has the shared labels. -/
theorem add_labels {a b : CArray} (ha : a.WF) (hb : b.WF) (hda : a.Distinct) (hdb : b.Distinct) :
    a.add b = .error .valueError ∨ ∃ r, a.add b = .ok r ∧ r.WF ∧ r.Distinct ∧ a.Fits b ∧
      ∀ d, r.coords.get? d = sharedLabels (a.coords.get? d) (b.coords.get? d) := by
  obtain ⟨h1, h2⟩ := add_by_label ha hb hda hdb
  by_cases h : a.Fits b
  · obtain ⟨r, h3, h4, h5, -, -, h6, -⟩ := h1 h
    exact .inr ⟨r, h3, h4, h5, h, h6⟩
  · exact .inl (h2 h)

theorem sub_labels {a b : CArray} (ha : a.WF) (hb : b.WF) (hda : a.Distinct) (hdb : b.Distinct) :
    a.sub b = .error .valueError ∨ ∃ r, a.sub b = .ok r ∧ r.WF ∧ r.Distinct ∧ a.Fits b ∧
      ∀ d, r.coords.get? d = sharedLabels (a.coords.get? d) (b.coords.get? d) := by
  obtain ⟨h1, h2⟩ := sub_by_label ha hb hda hdb
  by_cases h : a.Fits b
  · obtain ⟨r, h3, h4, h5, -, -, h6, -⟩ := h1 h
    exact .inr ⟨r, h3, h4, h5, h, h6⟩
  · exact .inl (h2 h)

/-- The part of Leapfrog for one quantity raises ValueError if the labels of the remembered and
of the present quantity differ along a dimension of the tendency. -/
theorem leapfrogEntry_moved (strength alpha : Rat) {o x t : CArray} (dt : Int) (ho : o.WF) (hx : x.WF) (ht : t.da.WF)
    (hdo : o.Distinct) (hdx : x.Distinct) (hct : t.coords = []) {d : String} {l m : List Rat} (hdt : d ∈ t.da.dims)
    (hlen : t.da.len d = x.da.len d) (hl : o.coords.get? d = some l) (hm : x.coords.get? d = some m) (hne : m ≠ l) :
    leapfrogEntryO (coordsArith R) strength alpha o x t dt = .error .valueError := by
  obtain ⟨tda, tc⟩ := t
  simp only at ht hct hdt hlen
  subst hct
  unfold leapfrogEntryO
  have htw : ∀ c c', CArray.WF (CArray.smul c (CArray.smul c' ⟨tda, []⟩)) := fun c c' =>
    ⟨ht, List.nodup_nil, fun _ _ h => (List.not_mem_nil h).elim⟩
  have htd : ∀ c c', CArray.Distinct (CArray.smul c (CArray.smul c' ⟨tda, []⟩)) := fun c c' _ _ h => (nomatch h)
  show (CArray.add o (CArray.smul (seconds dt) (CArray.smul 2 ⟨tda, []⟩)) >>= fun new =>
    CArray.sub o (CArray.smul 2 x) >>= fun d => CArray.add d new >>= fun d =>
    CArray.iadd x (CArray.smul alpha (CArray.smul (1 / 2 * strength) d)) >>= fun x' => _) = _
  rcases add_labels ho (htw (seconds dt) 2) hdo (htd (seconds dt) 2) with h | ⟨new, hnew, hnw, hnd, hfit, hnl⟩
  · rw [h]; rfl
  rw [hnew, Exc.ok_bind]
  have hlens : l.length = m.length := by
    have hdo' := ho.labels hl
    rcases hfit d hdo'.1 hdt with h | ⟨-, h⟩
    · rw [hdo'.2, (hx.labels hm).2, ← hlen]; exact h
    · exact (List.not_mem_nil h).elim
  have hnl : new.coords.get? d = some l := by rw [hnl d, hl]; rfl
  rcases sub_labels ho (smul_wf hx 2) hdo (smul_distinct hdx 2) with h | ⟨d1, hd1, h1w, h1d, -, h1l⟩
  · rw [h]; rfl
  rw [hd1, Exc.ok_bind]
  have h1l : d1.coords.get? d = some (l.filter (· ∈ m)) := by
    rw [h1l d, hl]
    show sharedLabels (some l) (x.coords.get? d) = _
    rw [hm]; rfl
  rcases add_labels h1w hnw h1d hnd with h | ⟨d2, hd2, h2w, h2d, -, h2l⟩
  · rw [h]; rfl
  rw [hd2, Exc.ok_bind]
  have h2l : d2.coords.get? d = some (l.filter (· ∈ m)) := by
    rw [h2l d, h1l, hnl]
    show some ((l.filter (· ∈ m)).filter (· ∈ l)) = _
    rw [List.filter_eq_self.2]
    intro y hy
    exact decide_eq_true (List.mem_filter.1 hy).1
  have hj : CArray.joined x (CArray.smul alpha (CArray.smul (1 / 2 * strength) d2)) ≠ [] := by
    intro h
    have := (CArray.joined_nil_iff hx.2.1 _).1 h d m _ hm h2l
    apply hne
    have hll : l.filter (· ∈ m) = l := by
      apply List.filter_eq_self.2
      have h3 : (l.filter (· ∈ m)).length = l.length := by rw [this, hlens]
      exact List.length_filter_eq_length_iff.1 h3
    rw [← this, hll]
  have : CArray.iadd x (CArray.smul alpha (CArray.smul (1 / 2 * strength) d2)) = .error .valueError := by
    unfold CArray.iadd
    rw [if_neg hj]
  rw [this]
  rfl

theorem stepLeapfrogO_fails {V : Type} {A : Arith V} (strength alpha : Rat) (old : EState V) (t : Dict V) (dt : Int)
    {k : String} {o x v : V} (ho : EState.da old k = .ok o) (hv : t.get k = .ok v) {e : Err}
    (he : leapfrogEntryO A strength alpha o x v dt = .error e) (ks : List String) (hk : k ∈ ks) (hnd : ks.Nodup)
    (state new : EState V) (hx : EState.da state k = .ok x) :
    ∃ e, (stepLeapfrogO A strength alpha old t dt ks state new).2 = .error e := by
  induction ks generalizing state new with
  | nil => exact (List.not_mem_nil hk).elim
  | cons q ks ih =>
    rw [List.nodup_cons] at hnd
    unfold stepLeapfrogO
    by_cases e1 : q = k
    · subst e1
      rw [ho, Exc.ok_bind, hx, Exc.ok_bind, hv, Exc.ok_bind, he]
      exact ⟨e, rfl⟩
    · have hk : k ∈ ks := by
        rcases List.mem_cons.1 hk with h | h
        · exact absurd h.symm e1
        · exact h
      have hset : ∀ w, EState.da (Dict.set state q (.da w)) k = .ok x := by
        intro w
        unfold EState.da
        rw [Dict.get?_set_ne _ _ e1]
        exact hx
      generalize (EState.da old q >>= fun o => EState.da state q >>= fun x => t.get q >>= fun v =>
        leapfrogEntryO A strength alpha o x v dt) = r
      cases r with
      | error e' => exact ⟨e', rfl⟩
      | ok r =>
        obtain ⟨r1, r2⟩ := r
        cases r2 with
        | error e' => exact ⟨e', rfl⟩
        | ok n => exact ih hk hnd.2 _ _ (hset _)

theorem da_bareState (state : EState CArray) (k : String) :
    State.da (bareState state) k = (EState.da state k >>= fun c => .ok c.da) := by
  unfold State.da EState.da
  induction state with
  | nil => rfl
  | cons kv state ih =>
    obtain ⟨q, v⟩ := kv
    cases v with
    | da c =>
      rw [show bareState ((q, Entry.da c) :: state) = (q, Val.da c.da) :: bareState state from rfl,
        Dict.get?_cons, Dict.get?_cons]
      by_cases e : q = k
      · rw [if_pos e, if_pos e]; rfl
      · rw [if_neg e, if_neg e]; exact ih
    | time t =>
      rw [show bareState ((q, Entry.time t) :: state) = (q, Val.time t) :: bareState state from rfl,
        Dict.get?_cons, Dict.get?_cons]
      by_cases e : q = k
      · rw [if_pos e, if_pos e]; rfl
      · rw [if_neg e, if_neg e]; exact ih

theorem convert_unlabelled (state : EState CArray) (t : Dict DataArray) :
    convertTendenciesO (coordsArith R) state (unlabelled t) =
      (convertTendencies R (bareState state) t >>= fun t' => .ok (unlabelled t')) := by
  induction t with
  | nil => rfl
  | cons kv t ih =>
    obtain ⟨q, v⟩ := kv
    show convertTendenciesO (coordsArith R) state ((q, ⟨v, []⟩) :: unlabelled t) = _
    unfold convertTendenciesO convertTendencies
    rw [ih]
    have h1 : convertTendencyO (coordsArith R) state q ⟨v, []⟩ =
        (convertTendency R (bareState state) q v >>= fun v' => .ok ⟨v', []⟩) := by
      unfold convertTendencyO convertTendency
      rw [if_pos (show (coordsArith R).isContainer ⟨v, []⟩ = true from rfl),
        show (coordsArith R).attrs ⟨v, []⟩ = v.attrs from rfl]
      cases v.attrs.get? "units" with
      | none => rfl
      | some u0 =>
        dsimp only
        rw [da_bareState]
        cases EState.da state q with
        | error e => rfl
        | ok c =>
          show ((Dict.get c.da.attrs "units") >>= fun u => CArray.toUnits R ⟨v, []⟩ (u ++ " s^-1")) =
            ((Dict.get c.da.attrs "units" >>= fun u => v.toUnits R (u ++ " s^-1")) >>= _)
          cases Dict.get c.da.attrs "units" with
          | error e => rfl
          | ok u => rfl
    rw [h1]
    cases convertTendency R (bareState state) q v with
    | error e => rfl
    | ok v' =>
      show _ = ((convertTendencies R (bareState state) t >>= fun rest' => _) >>= _)
      cases convertTendencies R (bareState state) t with
      | error e => rfl
      | ok t' => rfl


theorem toUnits_shape {v w : DataArray} {u : String} (h : v.toUnits R u = .ok w) :
    w.dims = v.dims ∧ w.arr.shape = v.arr.shape := by
  unfold DataArray.toUnits DataArray.dataArrayToUnits at h
  cases h0 : v.attrs.get? "units" with
  | none => rw [h0] at h; cases h
  | some own =>
    rw [h0] at h
    dsimp only at h
    cases h1 : R.unit own with
    | error e => rw [h1] at h; cases e <;> cases h
    | ok a =>
      cases h2 : R.unit u with
      | error e => rw [h1, h2] at h; cases e <;> cases h
      | ok b =>
        rw [h1, h2] at h
        simp only [Exc.ok_bind] at h
        by_cases h3 : a.sameQty b
        · rw [if_pos h3] at h; cases h; exact ⟨rfl, rfl⟩
        · rw [if_neg h3] at h
          by_cases h4 : a.dim = b.dim
          · rw [if_pos h4] at h; cases h; exact ⟨rfl, rfl⟩
          · rw [if_neg h4] at h; cases h

theorem convertTendency_shape {state : State} {q : String} {v w : DataArray} (h : convertTendency R state q v = .ok w) :
    w.dims = v.dims ∧ w.arr.shape = v.arr.shape := by
  unfold convertTendency at h
  cases h0 : v.attrs.get? "units" with
  | none => rw [h0] at h; cases h; exact ⟨rfl, rfl⟩
  | some own =>
    rw [h0] at h
    obtain ⟨a, -, h⟩ := Exc.bind_ok_iff.1 h
    obtain ⟨u, -, h⟩ := Exc.bind_ok_iff.1 h
    exact toUnits_shape h

theorem get?_unlabelled (t : Dict DataArray) (k : String) :
    (unlabelled t).get? k = (t.get? k).map fun a => ⟨a, []⟩ := by
  induction t with
  | nil => rfl
  | cons kv t ih =>
    obtain ⟨q, v⟩ := kv
    rw [show unlabelled ((q, v) :: t) = (q, (⟨v, []⟩ : CArray)) :: unlabelled t from rfl, Dict.get?_cons, Dict.get?_cons]
    by_cases e : q = k
    · rw [if_pos e, if_pos e]; rfl
    · rw [if_neg e, if_neg e]; exact ih

theorem keys_unlabelled (t : Dict DataArray) : (unlabelled t).keys = t.keys := by
  unfold unlabelled Dict.keys
  simp

/-- **C89, Leapfrog does not step a state whose labels changed**: if the tendencies have an entry
for a quantity which, along a dimension of the tendency, has other labels than in the state
remembered from the last call, the call raises. -/
theorem leapfrog_moved {σ : Type} (p : Prog σ) (lf : LFOver CArray) (s : σ) (state old : EState CArray) (dt : Int)
    (hold : lf.old = some old) {r : TendOut} (hp : (p s (bareState state) dt).2 = .ok r) (hnd : r.1.keys.Nodup)
    {k : String} {o x : CArray} {v : DataArray} (hv : r.1.get? k = some v) (ho : EState.da old k = .ok o)
    (hx : EState.da state k = .ok x) (hvw : v.WF) (how : o.WF) (hxw : x.WF) (hod : o.Distinct) (hxd : x.Distinct)
    {d : String} {l m : List Rat} (hdv : d ∈ v.dims) (hlen : v.len d = x.da.len d) (hl : o.coords.get? d = some l)
    (hm : x.coords.get? d = some m) (hne : m ≠ l) :
    ∃ e, (LFOver.call (coordsArith R) (onBare p) lf s state dt).2.2.2 = .error e := by
  unfold LFOver.call
  by_cases ht : lf.timestep = none ∨ lf.timestep = some dt
  · simp only [if_pos ht]
    have h1 : (onBare p s state dt).2 = .ok (unlabelled r.1, unlabelled r.2) := by
      unfold onBare
      dsimp only
      rw [hp]
      rfl
    rw [h1]
    dsimp only
    rw [convert_unlabelled]
    cases hc : convertTendencies R (bareState state) r.1 with
    | error e => exact ⟨e, rfl⟩
    | ok t =>
      rw [Exc.ok_bind]
      dsimp only
      rw [hold]
      dsimp only
      obtain ⟨hk, hcv⟩ := convertTendencies_ok hc
      obtain ⟨v', hv', hvv⟩ := hcv k v hv
      obtain ⟨hs1, hs2⟩ := convertTendency_shape hvv
      have hv'w : v'.WF := by
        refine ⟨?_, ?_⟩
        · rw [hs1, hs2]; exact hvw.1
        · rw [hs1]; exact hvw.2
      have hl' : v'.len d = x.da.len d := by
        unfold DataArray.len at hlen ⊢
        rw [hs1, hs2]
        exact hlen
      obtain ⟨e, he⟩ := stepLeapfrogO_fails (A := coordsArith R) lf.strength lf.alpha old (unlabelled t) dt ho
        (v := ⟨v', []⟩) (by unfold Dict.get; rw [get?_unlabelled, hv']; rfl)
        (leapfrogEntry_moved (R := R) lf.strength lf.alpha dt how hxw hv'w hod hxd rfl (by rw [hs1]; exact hdv) hl' hl hm
          hne) (unlabelled t).keys (by rw [keys_unlabelled]; exact Dict.mem_keys_of_get? hv')
        (by rw [keys_unlabelled, hk]; exact hnd) state [] hx
      rw [he]
      exact ⟨e, rfl⟩
  · simp only [if_neg ht]
    exact ⟨_, rfl⟩

namespace Demo

/-- A component whose tendency of `T` is its value per second, without units. -/
def growth : Prog Unit := fun s state _ =>
  (s, State.da state "T" >>= fun a => .ok ([("T", { a with attrs := [] })], []))

/-- Temperatures over latitudes. -/
def latState (vals labels : List Rat) : EState CArray := [("T", .da (line "lat" vals labels))]

/-- The values of `T` in a state by label. -/
def byLabel (s : EState CArray) (label : Rat) : Option Rat :=
  match Dict.get? s "T" with
  | some (.da a) => some (a.da.at' (fun d => ((a.coords.get? d).getD []).idxOf label))
  | _ => none

/-- Two calls of a stepper, on the given states. -/
def twoCalls {τ : Type} (call : τ → Unit → EState CArray → Int →
    τ × Unit × EState CArray × Except Err (Dict CArray × EState CArray)) (x : τ) (s1 s2 : EState CArray) :
    Except Err (EState CArray) :=
  (call (call x () s1 1000000).1 () s2 1000000).2.2.2 >>= fun o => .ok o.2

/-- Non-vacuity of `ab_coords`: one step of an AdamsBashforth doubles the temperatures, and they
keep their latitudes. -/
example : Labelled (fun _ => [("lat", [-10, 10])]) (latState [10, 20] [-10, 10]) ∧
    Exc.test (tsCallO (coordsArith reg) [] [] "" false (abCallO (coordsArith reg) (onBare growth)) (liftAB { order := 2 }) ()
      (latState [10, 20] [-10, 10]) 1000000).2.2.2 (fun o => decide (byLabel o.2 (-10) = some 20 ∧
        byLabel o.2 10 = some 40)) = true := by
  refine ⟨?_, by decide +kernel⟩
  intro k a h
  simp only [latState, List.mem_singleton, Prod.mk.injEq, Entry.da.injEq] at h
  obtain ⟨-, rfl⟩ := h
  rfl

/-- **C89 is false of AdamsBashforth**: turning a state around, labels and values together, between
two calls changes its values at given labels after the second step (by label they would be 20 and
40): the tendencies remembered from the first call are used by position. -/
theorem ab_uses_positions :
    Exc.test (twoCalls (abCallO (coordsArith reg) (onBare growth)) (liftAB { order := 2 })
      (latState [10, 20] [-10, 10]) (latState [10, 20] [-10, 10])) (fun s =>
        decide (byLabel s (-10) = some 20 ∧ byLabel s 10 = some 40)) = true ∧
    Exc.test (twoCalls (abCallO (coordsArith reg) (onBare growth)) (liftAB { order := 2 })
      (latState [10, 20] [-10, 10]) (latState [20, 10] [10, -10])) (fun s =>
        decide (byLabel s (-10) = some 15 ∧ byLabel s 10 = some 45)) = true := by
  constructor <;> decide +kernel

/-- Non-vacuity of `leapfrog_moved`: a Leapfrog raises in that case. -/
example : Exc.failsWith (twoCalls (LFOver.call (coordsArith reg) (onBare growth)) {}
    (latState [10, 20] [-10, 10]) (latState [20, 10] [10, -10])) .valueError = true ∧
    Exc.test (twoCalls (LFOver.call (coordsArith reg) (onBare growth)) {}
      (latState [10, 20] [-10, 10]) (latState [10, 20] [-10, 10])) (fun _ => true) = true := by
  constructor <;> decide +kernel

/-- A component with the sum of two quantities as its diagnostic: it is given arrays without
labels, so it adds by position. -/
def adder : Prog Unit := fun s state _ =>
  (s, State.da state "T" >>= fun a => State.da state "S" >>= fun b => a.add b >>= fun r => .ok ([], [("sum", r)]))

/-- **Components add by position where DataArrays are added by label.** -/
theorem components_use_positions :
    Exc.test ((onBare adder () [("T", .da (line "lat" [10, 20] [-10, 10])), ("S", .da (line "lat" [1, 2] [10, -10]))]
      0).2 >>= fun o => o.2.get "sum") (fun r => decide (r.da.arr.get [0] = 11 ∧ r.da.arr.get [1] = 22)) = true ∧
    Exc.test ((line "lat" [10, 20] [-10, 10]).add (line "lat" [1, 2] [10, -10]))
      (fun r => decide (r.da.arr.get [0] = 12 ∧ r.da.arr.get [1] = 21 ∧ r.coords = [("lat", [-10, 10])])) = true := by
  constructor <;> decide +kernel

end Demo

end Verif
