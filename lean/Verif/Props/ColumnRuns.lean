import Verif.Spec.ColumnRuns
import Verif.Props.Columns
import Verif.Props.DimsKept
import Verif.Props.CombineDims
/-!
# C97 for runs

Runs of a time stepper with components that work column by column.
-/

namespace Verif

section
variable {H : List String} {φ : (String → Nat) → String → Nat} {L L' : String → Nat} {D D' : String → List String}
variable {R : Registry}

/-! ## Arithmetic -/

theorem sized_wf {a : DataArray} (h : a.Sized L) : a.WF := ⟨by rw [h.2, List.length_map], h.1⟩

/-- Arithmetic of the same arrays on two grids gives the same arrays. -/
theorem binop_grids {a b x y : DataArray} (ha : a.Sized L) (hb : b.Sized L') (hx : x.Sized L) (hy : y.Sized L')
    (h : SameAt φ a b) (h' : SameAt φ x y) (f : Rat → Rat → Rat) :
    ∃ r q, DataArray.binop f a x = .ok r ∧ DataArray.binop f b y = .ok q ∧ r.Sized L ∧ q.Sized L' ∧
      r.dims = a.dims ++ x.dims.filter (fun d => d ∉ a.dims) ∧ q.dims = b.dims ++ y.dims.filter (fun d => d ∉ b.dims) ∧
      ∀ m, SameAt φ { r with attrs := m } { q with attrs := m } := by
  obtain ⟨r, er, sr, dr⟩ := sized_binop ha hx f
  obtain ⟨q, eq, sq, dq⟩ := sized_binop hb hy f
  refine ⟨r, q, er, eq, sr, sq, dr, dq, fun m => ⟨rfl, fun ix hix => ?_⟩⟩
  have hs : ∀ {L : String → Nat} {a x : DataArray}, a.Sized L → x.Sized L → SameLengths a x := by
    intro L a x ha hx d h1 h2
    rw [len_of_sized ha h1, len_of_sized hx h2]
  obtain ⟨r', er', -, -, -, -, vr⟩ := (binop_spec f a x (sized_wf ha) (sized_wf hx)).1 (hs ha hx)
  obtain ⟨q', eq', -, -, -, -, vq⟩ := (binop_spec f b y (sized_wf hb) (sized_wf hy)).1 (hs hb hy)
  rw [er] at er'; cases er'
  rw [eq] at eq'; cases eq'
  show q.at' ix = r.at' (φ ix)
  have hin : ∀ d ∈ q.dims, ix d < L' d := fun d hd => by rw [← len_of_sized sq hd]; exact hix d hd
  rw [dq] at hin
  rw [vq, vr, h.2 ix fun d hd => by rw [len_of_sized hb hd]; exact hin d (List.mem_append_left _ hd), h'.2 ix fun d hd => ?_]
  rw [len_of_sized hy hd]
  by_cases hdb : d ∈ b.dims
  · exact hin d (List.mem_append_left _ hdb)
  · exact hin d (List.mem_append_right _ (List.mem_filter.2 ⟨hd, by simpa using hdb⟩))

theorem SameAt.map {a b : DataArray} (h : SameAt φ a b) (f : Rat → Rat) (m : Dict String) :
    SameAt φ { a with arr := a.arr.map f, attrs := m } { b with arr := b.arr.map f, attrs := m } :=
  ⟨rfl, fun ix hix => congrArg f (h.2 ix hix)⟩

theorem SameAt.attrs {a b : DataArray} (h : SameAt φ a b) (m : Dict String) :
    SameAt φ { a with attrs := m } { b with attrs := m } := ⟨rfl, h.2⟩

theorem toUnits_grids {Q : DataArray → DataArray → Prop} {a b : DataArray} (h : Q a b) (ha : a.attrs = b.attrs)
    (hm : ∀ (f : Rat → Rat) m, Q { a with arr := a.arr.map f, attrs := m } { b with arr := b.arr.map f, attrs := m })
    (u : String) : Exc.Rel Q (a.toUnits R u) (b.toUnits R u) := by
  unfold DataArray.toUnits DataArray.dataArrayToUnits
  rw [ha]
  cases b.attrs.get? "units" with
  | none => rfl
  | some own =>
    dsimp only
    cases h1 : R.unit own with
    | error e => cases e <;> rfl
    | ok ua =>
      cases h2 : R.unit u with
      | error e => cases e <;> rfl
      | ok ub =>
        simp only [Exc.ok_bind]
        by_cases h3 : ua.sameQty ub = true
        · simp only [if_pos h3]; exact h
        · by_cases h4 : ua.dim = ub.dim
          · simp only [if_neg h3, if_pos h4]; exact hm _ _
          · simp only [if_neg h3, if_neg h4]; rfl

theorem fits_left {D : List String} {a x r : DataArray} (ha : Fits L D [] a) (hx : ∀ d ∈ x.dims, d ∈ D) (hr : r.Sized L)
    (h : r.dims = a.dims ++ x.dims.filter (fun d => d ∉ a.dims)) : Fits L D [] r := by
  obtain ⟨-, ex, h1, h2⟩ := ha
  refine ⟨hr, [], ?_, fun d hd => hd⟩
  have he : ex = [] := by
    cases ex with
    | nil => rfl
    | cons e l => exact absurd (h2 e List.mem_cons_self) (by simp)
  subst he
  rw [List.append_nil] at h1
  have : x.dims.filter (fun d => d ∉ a.dims) = [] := by
    rw [List.filter_eq_nil_iff]
    intro d hd
    simpa [h1] using hx d hd
  rw [h, this, h1]

theorem fits_dims {D : List String} {a : DataArray} (h : Fits L D [] a) : a.dims = D := by
  obtain ⟨-, ex, h1, h2⟩ := h
  cases ex with
  | nil => rw [h1, List.append_nil]
  | cons e l => exact absurd (h2 e List.mem_cons_self) (by simp)

theorem within_union {D : List String} {a x r : DataArray} (ha : Within L D [] a) (hx : Within L D [] x) (hr : r.Sized L)
    (h : r.dims = a.dims ++ x.dims.filter (fun d => d ∉ a.dims)) : Within L D [] r := by
  refine ⟨hr, fun d hd => ?_⟩
  rw [h, List.mem_append] at hd
  rcases hd with hd | hd
  · exact ha.2 d hd
  · exact hx.2 d (List.mem_filter.1 hd).1

theorem within_dims {D : List String} {a : DataArray} (h : Within L D [] a) : ∀ d ∈ a.dims, d ∈ D := by
  intro d hd
  rcases h.2 d hd with h | h
  · exact h
  · cases h

theorem add_grids_fits {k : String} {a b x y : DataArray} {m : Dict String} (f : Rat → Rat → Rat)
    (h : OnGrids L L' φ D D' k a b) (hx : x.Sized L) (hy : y.Sized L') (hxd : ∀ d ∈ x.dims, d ∈ D k)
    (hyd : ∀ d ∈ y.dims, d ∈ D' k) (hxy : SameAt φ x y) :
    Exc.Rel (OnGrids L L' φ D D' k) (DataArray.binop f a x >>= fun r => .ok { r with attrs := m })
      (DataArray.binop f b y >>= fun r => .ok { r with attrs := m }) := by
  obtain ⟨hk, ha, hb, hab⟩ := h
  obtain ⟨r, q, er, eq, sr, sq, dr, dq, v⟩ := binop_grids ha.1 hb.1 hx hy hab hxy f
  rw [er, eq]
  exact ⟨hk, fits_left ha hxd sr dr, fits_left hb hyd sq dq, v m⟩

theorem grids_stand : StandFor R (dataArrayArith R) (OnGrids L L' φ D D') (TendOnGrids L L' φ D D') (SameAt φ) where
  attrsS := fun h => h.2.2.2.1
  attrsT := fun h => h.2.2.1
  container := fun _ => rfl
  toUnitsS := by
    rintro k a b h u
    exact toUnits_grids h h.2.2.2.1 (fun f m => ⟨h.1, h.2.1, h.2.2.1, h.2.2.2.map f m⟩) u
  toUnitsT := by
    rintro k a b h u
    exact toUnits_grids h h.2.2.1 (fun f m => ⟨h.1, h.2.1, h.2.2.map f m⟩) u
  smulS := fun h c => ⟨h.1, h.2.1, h.2.2.1, h.2.2.2.map _ _⟩
  smulT := fun h c => ⟨h.1, h.2.1, h.2.2.map _ _⟩
  setAttrs := fun h m => ⟨h.1, h.2.1, h.2.2.1, h.2.2.2.attrs m⟩
  divide := fun h c => ⟨h.1, h.2.1, h.2.2.1, h.2.2.2.map _ _⟩
  addSS := by
    intro k a b x y h h'
    have := add_grids_fits (m := a.attrs) (· + ·) h h'.2.1.1 h'.2.2.1.1 (by rw [fits_dims h'.2.1]; exact fun _ h => h)
      (by rw [fits_dims h'.2.2.1]; exact fun _ h => h) h'.2.2.2
    unfold DataArray.add
    rw [← h.2.2.2.1]
    exact this
  addST := by
    intro k a b x y h h'
    have := add_grids_fits (m := a.attrs) (· + ·) h h'.1.1 h'.2.1.1 (within_dims h'.1) (within_dims h'.2.1) h'.2.2
    unfold DataArray.add
    rw [← h.2.2.2.1]
    exact this
  addTT := by
    intro k a b x y h h'
    obtain ⟨r, q, er, eq, sr, sq, dr, dq, v⟩ := binop_grids h.1.1 h.2.1.1 h'.1.1 h'.2.1.1 h.2.2 h'.2.2 (· + ·)
    show Exc.Rel _ (DataArray.add a x) (DataArray.add b y)
    unfold DataArray.add
    rw [er, eq, ← h.2.2.1]
    exact ⟨within_union h.1 h'.1 sr dr, within_union h.2.1 h'.2.1 sq dq, v _⟩
  subSS := by
    intro k a b x y h h'
    have := add_grids_fits (m := a.attrs) (· - ·) h h'.2.1.1 h'.2.2.1.1 (by rw [fits_dims h'.2.1]; exact fun _ h => h)
      (by rw [fits_dims h'.2.2.1]; exact fun _ h => h) h'.2.2.2
    unfold DataArray.sub
    rw [← h.2.2.2.1]
    exact this
  subTT := by
    intro k a b x y h h'
    obtain ⟨r, q, er, eq, sr, sq, dr, dq, v⟩ := binop_grids h.1.1 h.2.1.1 h'.1.1 h'.2.1.1 h.2.2 h'.2.2 (· - ·)
    show Exc.Rel _ (DataArray.sub a x) (DataArray.sub b y)
    unfold DataArray.sub
    rw [er, eq, ← h.2.2.1]
    exact ⟨within_union h.1 h'.1 sr dr, within_union h.2.1 h'.2.1 sq dq, v _⟩
  iadd := by
    intro k a b x y h h'
    have := add_grids_fits (m := a.attrs) (· + ·) h h'.2.1.1 h'.2.2.1.1 (by rw [fits_dims h'.2.1]; exact fun _ h => h)
      (by rw [fits_dims h'.2.2.1]; exact fun _ h => h) h'.2.2.2
    show Exc.Rel _ (DataArray.iadd a x) (DataArray.iadd b y)
    unfold DataArray.iadd
    rw [if_pos (by rw [fits_dims h.2.1, fits_dims h'.2.1]; exact fun _ h => h),
      if_pos (by rw [fits_dims h.2.2.1, fits_dims h'.2.2.1]; exact fun _ h => h)]
    unfold DataArray.add
    rw [← h.2.2.2.1]
    exact this
  diag := fun h => h.2.2.2

/-! ## Components -/

theorem statesRel_get? {S : String → DataArray → DataArray → Prop} {s s' : State} (h : StatesRelK S s s') (k : String) :
    (Dict.get? s k = none ∧ Dict.get? s' k = none) ∨
    ∃ v w, Dict.get? s k = some v ∧ Dict.get? s' k = some w ∧ ValRel (S k) v w := by
  exact KeyRel.get? h k

theorem mem_wildDims {props : PropDict} {d : String} :
    d ∈ wildDims props D ↔ ∃ kv ∈ props, d ∈ D kv.1 ∧ d ∉ kv.2.dims.getD [] := by
  simp [wildDims, List.mem_flatMap, List.mem_filter]

theorem grids_sameColumns (hg : TwoGrids H L L' D D') {c : Class} (hc : SuitsGrids H L L' φ D D' c) {s s' : State}
    (h : StatesRelK (OnGrids L L' φ D D') s s') : SameColumns H φ L L' c.inProps s s' := by
  have hda : ∀ {k a}, Dict.get? s k = some (.da a) → ∃ b, Dict.get? s' k = some (.da b) ∧ OnGrids L L' φ D D' k a b := by
    intro k a ha
    rcases statesRel_get? h k with ⟨h1, -⟩ | ⟨v, w, h1, h2, h3⟩
    · rw [h1] at ha; cases ha
    · rw [h1] at ha; cases ha
      cases w with
      | da b => exact ⟨b, h2, h3⟩
      | time t => exact h3.elim
  have hda' : ∀ {k b}, Dict.get? s' k = some (.da b) → ∃ a, Dict.get? s k = some (.da a) ∧ OnGrids L L' φ D D' k a b := by
    intro k b hb
    rcases statesRel_get? h k with ⟨-, h1⟩ | ⟨v, w, h1, h2, h3⟩
    · rw [h1] at hb; cases hb
    · rw [h2] at hb; cases hb
      cases v with
      | da a => exact ⟨a, h1, h3⟩
      | time t => exact h3.elim
  have hreq : ∀ {q}, q ∈ requested s c.inProps → ∃ kv ∈ c.inProps, kv.2.dims = some q.2 ∧ Fits L (D kv.1) [] q.1 := by
    intro q hq
    obtain ⟨kv, hkv, h1, h2⟩ := mem_requested.1 hq
    obtain ⟨b, -, hb⟩ := hda h1
    exact ⟨kv, hkv, h2, hb.2.1⟩
  have hreq' : ∀ {q}, q ∈ requested s' c.inProps → ∃ kv ∈ c.inProps, kv.2.dims = some q.2 ∧ Fits L' (D' kv.1) [] q.1 := by
    intro q hq
    obtain ⟨kv, hkv, h1, h2⟩ := mem_requested.1 hq
    obtain ⟨a, -, ha⟩ := hda' h1
    exact ⟨kv, hkv, h2, ha.2.2.1⟩
  have hw : ∀ d ∈ wildSpec (requested s c.inProps), d ∈ wildDims c.inProps D := by
    intro d hd
    obtain ⟨q, hq, h1, h2⟩ := mem_wildSpec.1 hd
    obtain ⟨kv, hkv, h3, h4⟩ := hreq hq
    exact mem_wildDims.2 ⟨kv, hkv, by rw [← fits_dims h4]; exact h1, by rw [h3]; exact h2⟩
  have hw' : ∀ d ∈ wildSpec (requested s' c.inProps), d ∈ wildDims c.inProps D' := by
    intro d hd
    obtain ⟨q, hq, h1, h2⟩ := mem_wildSpec.1 hd
    obtain ⟨kv, hkv, h3, h4⟩ := hreq' hq
    exact mem_wildDims.2 ⟨kv, hkv, by rw [← fits_dims h4]; exact h1, by rw [h3]; exact h2⟩
  refine ⟨fun n => ?_, ?_, ?_, ?_, ?_, ?_, hc.nodup, hc.named, ?_, ?_, fun d hd => hc.wild d (hw d hd),
    fun d hd => hc.wild' d (hw' d hd), ?_, ?_, fun hall => ?_⟩
  · rcases statesRel_get? h n with ⟨h1, h2⟩ | ⟨v, w, h1, h2, h3⟩
    · rw [h1, h2]; trivial
    · rw [h1, h2]
      cases v with
      | time t => cases w with
        | time t' => exact h3
        | da b => exact h3.elim
      | da a => cases w with
        | time t' => exact h3.elim
        | da b =>
          obtain ⟨-, ha, hb, hab⟩ := h3
          refine ⟨hab.1, fun d hd => ?_, fun d hd hdH => ?_, hab.2⟩
          · rw [fits_dims ha, fits_dims hb]; exact hg.names n d hd
          · have hd' : d ∈ b.dims := by
              rw [fits_dims hb, ← hg.names n d hdH, ← fits_dims ha]; exact hd
            rw [len_of_sized ha.1 hd, len_of_sized hb.1 hd', hg.lengths d hdH]
  · intro n a ha
    obtain ⟨b, -, hb⟩ := hda ha
    exact sized_wf hb.2.1.1
  · intro n b hb
    obtain ⟨a, -, ha⟩ := hda' hb
    exact sized_wf ha.2.2.1.1
  · intro n a ha
    obtain ⟨b, -, hb⟩ := hda ha
    rw [fits_dims hb.2.1]; exact hg.star n
  · intro n b hb
    obtain ⟨a, -, ha⟩ := hda' hb
    rw [fits_dims ha.2.2.1]; exact hg.star' n
  · intro a ha
    obtain ⟨b, -, hb⟩ := hda ha
    exact hb.1 rfl
  · intro q hq hs d hd hdH
    obtain ⟨kv, hkv, h3, h4⟩ := hreq hq
    exact (hc.flat kv hkv _ h3 hs d hdH).1 (by rw [← fits_dims h4]; exact hd)
  · intro q hq hs d hd hdH
    obtain ⟨kv, hkv, h3, h4⟩ := hreq' hq
    exact (hc.flat kv hkv _ h3 hs d hdH).2 (by rw [← fits_dims h4]; exact hd)
  · intro q hq d hd
    obtain ⟨kv, hkv, h3, h4⟩ := hreq hq
    exact len_of_sized h4.1 hd
  · intro q hq d hd
    obtain ⟨kv, hkv, h3, h4⟩ := hreq' hq
    exact len_of_sized h4.1 hd
  · have hall' : ∀ {kv}, kv ∈ c.inProps → ∃ ds a b, kv.2.dims = some ds ∧ Dict.get? s kv.1 = some (.da a) ∧
        Dict.get? s' kv.1 = some (.da b) ∧ OnGrids L L' φ D D' kv.1 a b := by
      intro kv hkv
      obtain ⟨a, ha⟩ := hall kv hkv
      obtain ⟨b, hb, hab⟩ := hda ha
      obtain ⟨ds, hds⟩ := Option.isSome_iff_exists.1 (hc.declared kv hkv)
      exact ⟨ds, a, b, hds, ha, hb, hab⟩
    have hv' : ∀ d ∈ wildDims c.inProps D', d ∈ wildSpec (requested s' c.inProps) := by
      intro d hd
      obtain ⟨kv, hkv, h1, h2⟩ := mem_wildDims.1 hd
      obtain ⟨ds, a, b, h3, h4, h5, h6⟩ := hall' hkv
      refine mem_wildSpec.2 ⟨(b, ds), mem_requested.2 ⟨kv, hkv, h5, h3⟩, ?_, ?_⟩
      · show d ∈ b.dims
        rw [fits_dims h6.2.2.1]; exact h1
      · rw [h3] at h2; exact h2
    exact ⟨fun ix hix d hd => hc.regrid.inside ix (fun e he => hix e (hv' e he)) d (hw d hd),
      fun ix jx hij d hd => hc.regrid.only ix jx (fun e he => hij e (hv' e he)) d (hw d hd), hc.regrid.rest⟩

theorem keyRel_of_dictRel {r : DataArray → DataArray → Prop} {T : String → DataArray → DataArray → Prop}
    {d d' : Dict DataArray} (h : DictRel r d d')
    (ht : ∀ k a b, (k, a) ∈ d → (k, b) ∈ d' → r a b → T k a b) : KeyRel T d d' := by
  induction h with
  | nil => exact .nil
  | @cons x y l l' hxy _ ih =>
    obtain ⟨k, a⟩ := x
    obtain ⟨k', b⟩ := y
    obtain ⟨hk, hab⟩ := hxy
    cases (show k = k' from hk)
    exact .cons ⟨rfl, ht k a b List.mem_cons_self List.mem_cons_self hab⟩
      (ih fun k a b ha hb => ht k a b (List.mem_cons_of_mem _ ha) (List.mem_cons_of_mem _ hb))

theorem allFit_of_grids {s s' : State} (h : StatesRelK (OnGrids L L' φ D D') s s') :
    AllFit L D (fun _ => []) s ∧ AllFit L' D' (fun _ => []) s' := by
  constructor
  · intro k a hk
    obtain ⟨x, hx, h1, h2⟩ := forall₂_mem_left h hk
    obtain ⟨k', w⟩ := x
    cases w with
    | da b => exact h2.2.1
    | time t => exact h2.elim
  · intro k b hk
    obtain ⟨x, hx, h1, h2⟩ := forall₂_mem_right h hk
    obtain ⟨k', v⟩ := x
    cases (show k' = k from h1)
    cases v with
    | da a => exact h2.2.2.1
    | time t => exact h2.elim

/-- **C97, components in a run.**  A component that works column by column does the same on
both grids. -/
theorem component_on_grids {σ : Type} (hR : R.Faithful) (g : Tracers) {c : Class} {i : Inst} (hp : PlainClass c i)
    (hg : TwoGrids H L L' D D') (hc : SuitsGrids H L L' φ D D' c)
    {ac : σ → RawState → Int → σ × Except Err (Dict NDArray × Dict NDArray)}
    (hac : ∀ dt, ColumnWise c.inProps c.outProps c.diagProps [] i.ignored (fun s raw => ac s raw dt)) :
    ProgsRelK (OnGrids L L' φ D D') (TendOnGrids L L' φ D D') (SameAt φ)
      (fun s state dt => callTendency R g c i (fun s raw => ac s raw dt) s state)
      (fun s state dt => callTendency R g c i (fun s raw => ac s raw dt) s state) := by
  intro x s s' dt hs
  obtain ⟨h1, h2⟩ := (components_column_wise hR g hp hc.outs hc.diags (grids_sameColumns hg hc hs) x).1 _ (hac dt)
  refine ⟨h1, ?_⟩
  have hw : ∀ (L : String → Nat) (D : String → List String) (s : State),
      (∀ kv ∈ c.outProps, ∀ dims, effDims c.inProps kv.1 kv.2 = some dims → DimsSuit c.inProps D (fun _ => []) kv.1 dims) →
      AllFit L D (fun _ => []) s → ∀ out, (callTendency R g c i (fun s raw => ac s raw dt) x s).2 = .ok out →
      ∀ k a, (k, a) ∈ out.1 → Within L (D k) [] a := fun L D s hd hs out ho =>
    component_keeps_dims (L := L) (E := fun _ => []) g c i hp.packer hp.outs.1 hd (fun s raw => ac s raw dt) x s dt out hs ho
  have w1 := hw L D s (fun kv hkv dims hd => (hc.suits kv hkv dims hd).1) (allFit_of_grids hs).1
  have w2 := hw L' D' s' (fun kv hkv dims hd => (hc.suits kv hkv dims hd).2) (allFit_of_grids hs).2
  dsimp only
  generalize (callTendency R g c i (fun s raw => ac s raw dt) x s).2 = y at h2 w1
  generalize (callTendency R g c i (fun s raw => ac s raw dt) x s').2 = y' at h2 w2
  cases y with
  | error e => cases y' with
    | error e' => exact h2
    | ok r' => exact h2.elim
  | ok r => cases y' with
    | error e' => exact h2.elim
    | ok r' =>
      refine ⟨keyRel_of_dictRel h2.1 fun k a b ha hb hab => ⟨w1 r rfl k a ha, w2 r' rfl k b hb, hab.attrs, hab.val⟩, ?_⟩
      exact h2.2.imp fun x y hxy => ⟨hxy.1, hxy.2.attrs, hxy.2.val⟩

/-- **C97, runs.**  With components that do the same on both grids, a run on the second grid
is in each column the run on the first grid, for every time stepper and any number of steps. -/
theorem run_column_wise {σ : Type} {p p' : Prog σ}
    (hp : ProgsRelK (OnGrids L L' φ D D') (TendOnGrids L L' φ D D') (SameAt φ) p p')
    (inProps outProps : PropDict) (inst : String) (tid : Bool) (s : σ) {state state' : State}
    (hs : StatesRelK (OnGrids L L' φ D D') state state') (dt : Int) (n : Nat) :
    (∀ order, RunRelK (ABsRelK (TendOnGrids L L' φ D D')) (OnGrids L L' φ D D')
      (runSteps (tsCall R inProps outProps inst tid (abCall R p)) dt n { order := order } s state)
      (runSteps (tsCall R inProps outProps inst tid (abCall R p')) dt n { order := order } s state')) ∧
    (∀ strength alpha, RunRelK (LFsRelK (OnGrids L L' φ D D')) (OnGrids L L' φ D D')
      (runSteps (tsCall R inProps outProps inst tid (LF.call R p)) dt n { strength := strength, alpha := alpha } s state)
      (runSteps (tsCall R inProps outProps inst tid (LF.call R p')) dt n { strength := strength, alpha := alpha } s
        state')) ∧
    (∀ three, RunRelK (ABsRelK (TendOnGrids L L' φ D D')) (OnGrids L L' φ D D')
      (runSteps (tsCall R inProps outProps inst tid (sspCall R p three)) dt n { order := 1 } s state)
      (runSteps (tsCall R inProps outProps inst tid (sspCall R p' three)) dt n { order := 1 } s state')) :=
  runs_keyed grids_stand hp inProps outProps inst tid s hs dt n

/-- **C97, composites** of such components. -/
theorem composite_column_wise {σ : Type} {cs : List (Comp σ)}
    (hc : ∀ c ∈ cs, ProgsRelK (OnGrids L L' φ D D') (TendOnGrids L L' φ D D') (SameAt φ)
      (fun s state dt => implicitCall c state dt s) (fun s state dt => implicitCall c state dt s)) :
    ProgsRelK (OnGrids L L' φ D D') (TendOnGrids L L' φ D D') (SameAt φ)
      (fun s state dt => callImplicitComposite R cs s state dt) (fun s state dt => callImplicitComposite R cs s state dt) :=
  composite_keyed grids_stand (List.forall₂_same.2 hc)

/-- What the correspondence of runs says of the final states: the same quantities, in each
column with the same values. -/
theorem run_columns_values {τ σ : Type} {M : τ → τ → Prop} {x y : Option (τ × σ × State)}
    (h : RunRelK M (OnGrids L L' φ D D') x y) {r : τ × σ × State} (hr : x = some r) :
    ∃ r', y = some r' ∧ r.2.1 = r'.2.1 ∧ Dict.keys r.2.2 = Dict.keys r'.2.2 ∧
      ∀ k a, Dict.get? r.2.2 k = some (.da a) → ∃ b, Dict.get? r'.2.2 k = some (.da b) ∧
        b.dims = D' k ∧ b.arr.shape = (D' k).map L' ∧ b.attrs = a.attrs ∧
        ∀ ix, (∀ d ∈ D' k, ix d < L' d) → b.at' ix = a.at' (φ ix) := by
  subst hr
  cases y with
  | none => exact h.elim
  | some r' =>
    obtain ⟨-, h2, h3⟩ := h
    refine ⟨r', rfl, h2, KeyRel.keys h3, fun k a ha => ?_⟩
    rcases statesRel_get? h3 k with ⟨h4, -⟩ | ⟨v, w, h4, h5, h6⟩
    · rw [h4] at ha; cases ha
    · rw [h4] at ha; cases ha
      cases w with
      | time t => exact h6.elim
      | da b =>
        obtain ⟨-, -, hb, hab⟩ := h6
        have hd := fits_dims hb
        exact ⟨b, h5, hd, by rw [hb.1.2, hd], hab.1.symm, fun ix hix => hab.2 ix fun d hd' => by
          rw [len_of_sized hb.1 hd']; exact hix d (hd ▸ hd')⟩

end

namespace Demo

/-- `stateC` with its quantities in the order of `state`. -/
def stateL : State := [("T", .da tempC), ("h", .da prof), ("time", .time 0)]

def gridD : String → List String := fun k => if k = "T" then ["x", "z", "y"] else ["z"]
def listD : String → List String := fun k => if k = "T" then ["col", "z"] else ["z"]

theorem grids : TwoGrids across gridL listL gridD listD where
  names := by
    intro k d h
    unfold across at h
    simp only [List.mem_cons, not_or] at h
    unfold gridD listD
    split <;> simp [h.1, h.2.1, h.2.2.1]
  lengths := by
    intro d h
    unfold across at h
    simp only [List.mem_cons, not_or] at h
    unfold gridL listL
    rw [if_neg (not_or.2 ⟨h.1, h.2.1⟩)]
  star := by intro k; unfold gridD; split <;> decide
  star' := by intro k; unfold listD; split <;> decide

theorem suit_T (D : String → List String) (hT : "z" ∈ D "T") (hh : D "h" = ["z"]) :
    DimsSuit cls.inProps D (fun _ => []) "T" ["z", "*"] where
  nodup := by decide
  own := by
    intro d hd hne
    simp only [List.mem_cons, List.not_mem_nil, or_false] at hd
    exact .inl ((hd.resolve_right hne) ▸ hT)
  known := by
    intro d hd hne
    simp only [List.mem_cons, List.not_mem_nil, or_false] at hd
    exact ⟨_, List.mem_cons_self, (hd.resolve_right hne) ▸ hT⟩
  listed := by
    intro d hd hne q hq ds hds _
    simp only [List.mem_cons, List.not_mem_nil, or_false] at hd
    obtain rfl := hd.resolve_right hne
    simp only [cls, List.mem_cons, List.not_mem_nil, or_false] at hq
    rcases hq with rfl | rfl <;> cases hds <;> simp
  matched := by
    intro _ q hq ds hds d hd hn
    simp only [cls, List.mem_cons, List.not_mem_nil, or_false] at hq
    rcases hq with rfl | rfl
    · exact hd
    · cases hds
      simp only [hh, List.not_mem_nil, or_false] at hd
      exact absurd hd hn

theorem cls_suits : SuitsGrids across gridL listL colOf gridD listD cls where
  declared := by decide
  nodup := stateC_columns.nodup
  named := stateC_columns.named
  flat := by
    intro kv hkv ds hds hs
    simp only [cls, List.mem_cons, List.not_mem_nil, or_false] at hkv
    rcases hkv with rfl | rfl
    · cases hds; exact absurd (by simp) hs
    · decide
  wild := by decide
  wild' := by decide
  regrid := by
    refine ⟨fun ix h d hd => ?_, fun ix jx h d hd => ?_, colOf_rest⟩
    · have hd : d ∈ ["x", "y"] := hd
      simp only [List.mem_cons, List.not_mem_nil, or_false] at hd
      rcases hd with rfl | rfl
      · exact Nat.mod_lt _ (by decide)
      · exact Nat.mod_lt _ (by decide)
    · have hd : d ∈ ["x", "y"] := hd
      have hc := h "col" (by decide)
      simp only [List.mem_cons, List.not_mem_nil, or_false] at hd
      unfold colOf
      rcases hd with rfl | rfl <;> simp [hc]
  outs := cls_avoids.1
  diags := cls_avoids.2
  suits := by
    intro kv hkv dims hd
    simp only [cls, List.mem_singleton] at hkv
    subst hkv
    cases hd
    exact ⟨suit_T _ (by decide) rfl, suit_T _ (by decide) rfl⟩

def colProg : Prog Nat := fun s state _ => callTendency reg {} cls plainInst acCol s state

theorem states_on_grids : StatesRelK (OnGrids gridL listL colOf gridD listD) state stateL := by
  refine .cons ⟨rfl, by decide, ⟨⟨by decide, by decide⟩, [], rfl, by simp⟩, ⟨⟨by decide, by decide⟩, [], rfl, by simp⟩,
    temp_columns.attrs, temp_columns.val⟩ (.cons ⟨rfl, by decide, ⟨⟨by decide, by decide⟩, [], rfl, by simp⟩,
    ⟨⟨by decide, by decide⟩, [], rfl, by simp⟩, prof_columns.attrs, prof_columns.val⟩ (.cons ⟨rfl, rfl⟩ .nil))

/-- `T` at given positions at the end of a run. -/
def finalTs {τ : Type} (ix : List (List Nat)) : Option (τ × Nat × State) → List Rat
  | some (_, _, st) => match Dict.get? st "T" with
    | some (.da a) => ix.map a.arr.get
    | _ => []
  | none => []

end Demo

open Demo in
/-- Two steps of AdamsBashforth of order 2, on the grid and for the list of columns; the sum
over the column is used in each step. -/
example : RunRelK (ABsRelK (TendOnGrids gridL listL colOf gridD listD)) (OnGrids gridL listL colOf gridD listD)
      (runSteps (tsCall reg cls.inProps warmProps "S" false (abCall reg colProg)) 1000000 2 { order := 2 } 0 state)
      (runSteps (tsCall reg cls.inProps warmProps "S" false (abCall reg colProg)) 1000000 2 { order := 2 } 0 stateL) ∧
    finalTs [[1, 2, 0], [0, 2, 1]] (runSteps (tsCall reg cls.inProps warmProps "S" false (abCall reg colProg)) 1000000 2
      { order := 2 } 0 state) = finalTs [[0, 2], [1, 2]] (runSteps (tsCall reg cls.inProps warmProps "S" false
      (abCall reg colProg)) 1000000 2 { order := 2 } 0 stateL) ∧
    finalTs [[0, 2], [2, 2]] (runSteps (tsCall reg cls.inProps warmProps "S" false
      (abCall reg colProg)) 1000000 2 { order := 2 } 0 stateL) = [1215, 1215] :=
  ⟨(run_column_wise (component_on_grids reg_faithful {} cls_plain grids cls_suits
    (ac := fun s raw _ => acCol s raw) fun _ => acCol_columnWise) cls.inProps warmProps "S" false 0 states_on_grids 1000000 2).1 2,
    by decide +kernel, by decide +kernel⟩

end Verif
