import Verif.Spec.Columns
import Verif.Props.Layout
import Verif.Props.Coords
import Verif.Lemmas.BackendCalls
/-!
# C97: columns are computed alone

Components whose `array_call` works column by column give each column the same result on
every grid.
-/

namespace Verif

section
variable {H : List String} {φ : (String → Nat) → String → Nat}

theorem MovedVal.da {v v' : Option Val} (h : MovedVal H φ v v') {a : DataArray} (ha : v = some (.da a)) :
    ∃ b, v' = some (.da b) ∧ Moved H φ a b := by
  subst ha
  cases v' with
  | none => exact h.elim
  | some w => cases w with
    | da b => exact ⟨b, rfl, h⟩
    | time t => exact h.elim

theorem MovedVal.isSome {v v' : Option Val} (h : MovedVal H φ v v') : v.isSome = v'.isSome := by
  cases v with
  | none => cases v' with
    | none => rfl
    | some w => exact h.elim
  | some v => cases v' with
    | none => cases v <;> exact h.elim
    | some w => rfl

/-- Position in the flattened wildcard of the first state for one of the second. -/
def rowOf (W W' : List String) (L L' : String → Nat) (φ : (String → Nat) → String → Nat) (p : Nat) : Nat :=
  ravel (W.map L) (W.map (φ (DataArray.named W' (unravel (W'.map L') p))))

theorem rowOf_ravel {W W' : List String} {L L' : String → Nat} (h : Regrid H W W' L L' φ) {ix : String → Nat}
    (hix : ∀ d ∈ W', ix d < L' d) :
    rowOf W W' L L' φ (ravel (W'.map L') (W'.map ix)) = ravel (W.map L) (W.map (φ ix)) := by
  unfold rowOf
  rw [unravel_ravel (inB_map_lt hix)]
  congr 1
  refine List.map_congr_left fun d hd => ?_
  exact h.only _ _ (fun e he => DataArray.named_map he) d hd

theorem named_unravel_lt {W' : List String} {L' : String → Nat} {p : Nat} (hp : p < size (W'.map L')) :
    ∀ d ∈ W', DataArray.named W' (unravel (W'.map L') p) d < L' d := by
  intro d hd
  have key : ∀ (l : List String) (i : List Nat), InB i (l.map L') → ∀ d ∈ l, DataArray.named l i d < L' d := by
    intro l
    induction l with
    | nil => intro i _ d hd; cases hd
    | cons e l ih =>
      intro i hi d hd
      cases i with
      | nil => exact hi.elim
      | cons x i =>
        unfold DataArray.named
        by_cases hde : e = d
        · subst hde
          simpa using hi.1
        · have hd' : d ∈ l := (List.mem_cons.1 hd).resolve_left (fun h => hde h.symm)
          rw [List.idxOf_cons_ne _ hde]
          simpa [DataArray.named] using ih i hi.2 d hd'
  exact key W' _ (inB_unravel hp) d hd

theorem rowOf_lt {W W' : List String} {L L' : String → Nat} (h : Regrid H W W' L L' φ) {p : Nat}
    (hp : p < size (W'.map L')) : rowOf W W' L L' φ p < size (W.map L) :=
  ravel_lt (inB_map_lt (h.inside _ (named_unravel_lt hp)))

theorem ravel_coords {W' : List String} {L' : String → Nat} (hn : W'.Nodup) {p : Nat} (hp : p < size (W'.map L')) :
    ravel (W'.map L') (W'.map (DataArray.named W' (unravel (W'.map L') p))) = p := by
  have key : ∀ (l : List String) (i : List Nat), l.Nodup → InB i (l.map L') → l.map (DataArray.named l i) = i := by
    intro l
    induction l with
    | nil => intro i _ hi; cases i with
      | nil => rfl
      | cons x i => exact hi.elim
    | cons e l ih =>
      intro i hn hi
      cases i with
      | nil => exact hi.elim
      | cons x i =>
        obtain ⟨h1, h2⟩ := List.nodup_cons.1 hn
        rw [List.map_cons]
        congr 1
        · simp [DataArray.named]
        · rw [← ih i h2 hi.2]
          refine List.map_congr_left fun d hd => ?_
          have hde : e ≠ d := fun h => h1 (h ▸ hd)
          rw [ih i h2 hi.2]
          simp only [DataArray.named]
          rw [List.idxOf_cons_ne _ hde]
          rfl
  rw [key W' _ hn (inB_unravel hp), ravel_unravel hp]

variable {R : Registry} {s s' : State} {L L' : String → Nat} {props : PropDict}

theorem SameColumns.fwd (h : SameColumns H φ L L' props s s') {q : DataArray × List String} (hq : q ∈ requested s props) :
    ∃ q' ∈ requested s' props, Moved H φ q.1 q'.1 ∧ q.2 = q'.2 := by
  obtain ⟨kv, hkv, h1, h2⟩ := mem_requested.1 hq
  obtain ⟨b, hb, hab⟩ := (h.moved kv.1).da h1
  exact ⟨(b, q.2), mem_requested.2 ⟨kv, hkv, hb, h2⟩, hab, rfl⟩

theorem SameColumns.bwd (h : SameColumns H φ L L' props s s') {q : DataArray × List String} (hq : q ∈ requested s' props) :
    ∃ q' ∈ requested s props, Moved H φ q'.1 q.1 ∧ q.2 = q'.2 := by
  obtain ⟨kv, hkv, h1, h2⟩ := mem_requested.1 hq
  have hm := h.moved kv.1
  rw [h1] at hm
  cases hv : Dict.get? s kv.1 with
  | none => rw [hv] at hm; exact hm.elim
  | some v =>
    rw [hv] at hm
    cases v with
    | time t => exact hm.elim
    | da a => exact ⟨(a, q.2), mem_requested.2 ⟨kv, hkv, hv, h2⟩, hm, rfl⟩

/-- The grids are tied together if the first state is accepted. -/
theorem SameColumns.grid (h : SameColumns H φ L L' props s s') {out : Dict NDArray}
    (ho : getNumpyArrays R s props = .ok out) :
    Regrid H (wildSpec (requested s props)) (wildSpec (requested s' props)) L L' φ := by
  unfold getNumpyArrays at ho
  obtain ⟨wl, hw, -⟩ := Exc.bind_ok_iff.1 ho
  obtain ⟨inv, -, -⟩ := getWildcard_ok h.wf hw
  refine h.regrid fun kv hkv => ?_
  obtain ⟨_, _, a, _, _, e3, _⟩ := inv.entry kv hkv
  exact ⟨a, e3⟩

theorem SameColumns.lens {M M' : String → Nat} (h : SameColumns H φ L L' props s s') (hM : LenSpec (requested s props) M)
    (hM' : LenSpec (requested s' props) M') :
    (∀ d ∈ wildSpec (requested s props), M d = L d) ∧ (∀ d ∈ wildSpec (requested s' props), M' d = L' d) ∧
    ∀ d, d ∉ H → M' d = M d := by
  refine ⟨fun d hd => ?_, fun d hd => ?_, fun d hd => ?_⟩
  · obtain ⟨q, hq, h1, -⟩ := mem_wildSpec.1 hd
    rw [hM.1 q hq d h1, h.len q hq d h1]
  · obtain ⟨q, hq, h1, -⟩ := mem_wildSpec.1 hd
    rw [hM'.1 q hq d h1, h.len' q hq d h1]
  · by_cases hex : ∃ q ∈ requested s props, d ∈ q.1.dims
    · obtain ⟨q, hq, hdq⟩ := hex
      obtain ⟨q', hq', hmv, -⟩ := h.fwd hq
      rw [hM.1 q hq d hdq, hM'.1 q' hq' d ((hmv.named d hd).1 hdq), hmv.len d hdq hd]
    · rw [hM.2 d fun q hq hdq => hex ⟨q, hq, hdq⟩, hM'.2 d fun q hq hdq => ?_]
      obtain ⟨q', hq', hmv, -⟩ := h.bwd hq
      exact hex ⟨q', hq', (hmv.named d hd).2 hdq⟩

/-- **C97, inputs.**  On the second grid a component is given, at each position along the
wildcard, the column that the map says. -/
theorem columns_inputs (hR : R.Faithful) (hone : OneStar props) (hkeys : (props.map outName).Nodup)
    (h : SameColumns H φ L L' props s s') {out out' : Dict NDArray}
    (ho : getNumpyArrays R s props = .ok out) (ho' : getNumpyArrays R s' props = .ok out') :
    ∃ M, LenSpec (requested s props) M ∧
      PickedInputs props M (size ((wildSpec (requested s props)).map L)) (size ((wildSpec (requested s' props)).map L'))
        (rowOf (wildSpec (requested s props)) (wildSpec (requested s' props)) L L' φ) out out' := by
  obtain ⟨M, hM, hall⟩ := inputs_labelled_correctly R hR s props out h.wf h.star hone hkeys ho
  obtain ⟨M', hM', hall'⟩ := inputs_labelled_correctly R hR s' props out' h.wf' h.star' hone hkeys ho'
  obtain ⟨hl, hl', hll⟩ := h.lens hM hM'
  have hgrid := h.grid ho
  refine ⟨M, hM, ?_, ?_⟩
  · have hk : ∀ {s : State} {out : Dict NDArray}, getNumpyArrays R s props = .ok out → out.keys = props.map outName := by
      intro s out ho
      unfold getNumpyArrays at ho
      obtain ⟨wl, _, ho⟩ := Exc.bind_ok_iff.1 ho
      simpa [Dict.keys] using rawInputs_keyList (by simpa using hkeys) ho
    rw [hk ho, hk ho']
  · intro kv hkv dims hdims
    obtain ⟨dims1, units, a, own, raw, h1, h2, h3, h4, h5, h6, h7⟩ := hall kv hkv
    obtain ⟨dims2, units', a', own', raw', h1', h2', h3', h4', h5', h6', h7'⟩ := hall' kv hkv
    rw [hdims] at h1 h1'
    cases h1
    cases h1'
    rw [h2] at h2'
    cases h2'
    obtain ⟨b, hb, hab⟩ := (h.moved kv.1).da h3
    rw [h3'] at hb
    cases hb
    rw [← hab.attrs, h4] at h4'
    cases h4'
    have hav : ∀ d ∈ dims, d ∉ H := h.named kv hkv dims hdims
    have hW : (wildSpec (requested s props)).map M = (wildSpec (requested s props)).map L :=
      List.map_congr_left hl
    have hW' : (wildSpec (requested s' props)).map M' = (wildSpec (requested s' props)).map L' :=
      List.map_congr_left hl'
    refine ⟨raw, raw', h5, h5', ?_, ?_, fun p ix hp hix => ?_⟩
    · rw [h6]; unfold specShape; rw [hW]
    · rw [h6']; unfold specShape; rw [hW']
      refine List.map_congr_left fun d hd => ?_
      split
      · rfl
      · exact hll d (hav d hd)
    · let jx : String → Nat := fun d =>
        if d ∈ H then DataArray.named (wildSpec (requested s' props)) (unravel ((wildSpec (requested s' props)).map L') p) d
        else ix d
      have jn : ∀ d, d ∉ H → jx d = ix d := fun d hd => if_neg hd
      have jw : ∀ d ∈ wildSpec (requested s' props), jx d =
          DataArray.named (wildSpec (requested s' props)) (unravel ((wildSpec (requested s' props)).map L') p) d :=
        fun d hd => if_pos (h.wild' d hd)
      have jb : "*" ∈ dims → ∀ d ∈ wildSpec (requested s' props), jx d < L' d := fun hs d hd => by
        rw [jw d hd]; exact named_unravel_lt (hp hs) d hd
      have e1 : (dims.map fun d => if d = "*" then p else ix d) = specIndex dims (wildSpec (requested s' props)) M' jx := by
        unfold specIndex
        rw [hW']
        refine List.map_congr_left fun d hd => ?_
        split
        · rename_i hs
          rw [List.map_congr_left jw, ravel_coords (nodup_wildSpec _) (hp (hs ▸ hd))]
        · exact (jn d (hav d hd)).symm
      have e2 : (dims.map fun d => if d = "*" then rowOf (wildSpec (requested s props)) (wildSpec (requested s' props)) L L' φ p
          else ix d) = specIndex dims (wildSpec (requested s props)) M (φ jx) := by
        unfold specIndex
        rw [hW]
        refine List.map_congr_left fun d hd => ?_
        split
        · unfold rowOf
          congr 1
          exact List.map_congr_left fun e he => hgrid.only _ _ (fun x hx => (jw x hx).symm) e he
        · rw [hgrid.rest _ _ (hav d hd), jn d (hav d hd)]
      rw [e1, e2]
      have b1 : ∀ d ∈ dims, d ≠ "*" → φ jx d < M d := fun d hd hs => by
        rw [hgrid.rest _ _ (hav d hd), jn d (hav d hd)]; exact hix d hd hs
      have b2 : "*" ∈ dims → ∀ d ∈ wildSpec (requested s props), φ jx d < M d := fun hs d hd => by
        rw [hl d hd]; exact hgrid.inside jx (jb hs) d hd
      have b1' : ∀ d ∈ dims, d ≠ "*" → jx d < M' d := fun d hd hs => by
        rw [jn d (hav d hd), hll d (hav d hd)]; exact hix d hd hs
      have b2' : "*" ∈ dims → ∀ d ∈ wildSpec (requested s' props), jx d < M' d := fun hs d hd => by
        rw [hl' d hd]; exact jb hs d hd
      obtain ⟨x, y, hx, hy, _, e⟩ := h7 (φ jx) b1 b2
      obtain ⟨x', y', hx', hy', _, e'⟩ := h7' jx b1' b2'
      cases hx.symm.trans hx'
      cases hy.symm.trans hy'
      have hq : (a', dims) ∈ requested s' props := mem_requested.2 ⟨kv, hkv, h3', hdims⟩
      have hval : a'.at' jx = a.at' (φ jx) := by
        refine hab.val jx fun d hd => ?_
        rw [← hM'.1 _ hq d hd]
        by_cases hin : d ∈ dims
        · exact b1' d hin fun e => h.star' _ _ h3' (e ▸ hd)
        · by_cases hs : "*" ∈ dims
          · exact b2' hs d (mem_wildSpec.2 ⟨_, hq, hd, hin⟩)
          · have hv : ValidInputs R s' props := by
              by_contra hv
              obtain ⟨e, he⟩ := invalid_inputs_rejected R hR s' props h.wf' hv
              rw [he] at ho'
              cases ho'
            exact absurd (hv.dims _ hq hs d hd) hin
      rw [hval] at e'
      have hsc := x.scale_pos
      have : raw'.get (specIndex dims (wildSpec (requested s' props)) M' jx) * x.scale =
          raw.get (specIndex dims (wildSpec (requested s props)) M (φ jx)) * x.scale := by linarith
      exact mul_right_cancel₀ (ne_of_gt hsc) this

/-! ## Acceptance -/

theorem toUnits_attrs {R : Registry} {a b : DataArray} (h : a.attrs = b.attrs) (u : String) :
    Exc.Rel (fun _ _ => True) (a.toUnits R u) (b.toUnits R u) := by
  unfold DataArray.toUnits DataArray.dataArrayToUnits
  rw [h]
  cases b.attrs.get? "units" with
  | none => rfl
  | some own =>
    dsimp only
    cases h1 : R.unit own with
    | error e => cases e <;> rfl
    | ok ua =>
      cases h2 : R.unit u with
      | error e => cases e <;> rfl
      | ok ub =>
        simp only [Exc.ok_bind]
        by_cases h3 : ua.sameQty ub = true
        · simp only [if_pos h3]; trivial
        · by_cases h4 : ua.dim = ub.dim
          · simp only [if_neg h3, if_pos h4]; trivial
          · simp only [if_neg h3, if_neg h4]; rfl

theorem matchLoop_columns (hwf : s.WF) (hwf' : s'.WF) {P : PropDict} {w w' : List String} {l l' : Dict Nat}
    (hmv : ∀ kv ∈ P, MovedVal H φ (Dict.get? s kv.1) (Dict.get? s' kv.1))
    (hlen : ∀ q ∈ requested s P, ∀ d ∈ q.1.dims, q.1.len d = L d)
    (hlen' : ∀ q ∈ requested s' P, ∀ d ∈ q.1.dims, q.1.len d = L' d)
    (hdims : ∀ q ∈ requested s P, ∀ d ∈ q.1.dims, d ∈ q.2 ∨ "*" ∈ q.2)
    (hdims' : ∀ q ∈ requested s' P, ∀ d ∈ q.1.dims, d ∈ q.2 ∨ "*" ∈ q.2)
    (hl : ∀ d m, l.get? d = some m → m = L d) (hl' : ∀ d m, l'.get? d = some m → m = L' d) :
    Exc.Rel (fun _ _ => True) (matchLoop s P w l) (matchLoop s' P w' l') := by
  induction P generalizing w w' l l' with
  | nil => trivial
  | cons kv P ih =>
    obtain ⟨n, p⟩ := kv
    unfold matchLoop
    cases hdu : ensureDimsUnits p with
    | error e => rfl
    | ok du =>
      simp only [Exc.ok_bind]
      have hd := ensureDimsUnits_ok.1 hdu
      have hm := hmv _ List.mem_cons_self
      unfold State.da
      cases h1 : Dict.get? s n with
      | none =>
        cases h2 : Dict.get? s' n with
        | none => rfl
        | some v => simp only [h1, h2] at hm; exact hm.elim
      | some v =>
        cases v with
        | time t =>
          cases h2 : Dict.get? s' n with
          | none => simp only [h1, h2] at hm; exact hm.elim
          | some v => cases v with
            | time t => rfl
            | da b => simp only [h1, h2] at hm; exact hm.elim
        | da a =>
          obtain ⟨b, h2, hab⟩ := hm.da h1
          simp only [h2, Exc.ok_bind]
          have hq : (a, du.1) ∈ requested s ((n, p) :: P) := mem_requested.2 ⟨(n, p), List.mem_cons_self, h1, hd.1⟩
          have hq' : (b, du.1) ∈ requested s' ((n, p) :: P) := mem_requested.2 ⟨(n, p), List.mem_cons_self, h2, hd.1⟩
          have hzs : ∀ d n, (d, n) ∈ a.dims.zip a.arr.shape → n = L d := by
            intro d n hd
            obtain ⟨hd1, hd2⟩ := (DataArray.mem_zip_len (hwf _ _ h1)).1 hd
            rw [hd2]; exact hlen _ hq d hd1
          have hzs' : ∀ d n, (d, n) ∈ b.dims.zip b.arr.shape → n = L' d := by
            intro d n hd
            obtain ⟨hd1, hd2⟩ := (DataArray.mem_zip_len (hwf' _ _ h2)).1 hd
            rw [hd2]; exact hlen' _ hq' d hd1
          obtain ⟨l1, hl1⟩ := learnLens_isOk hzs hl
          obtain ⟨l1', hl1'⟩ := learnLens_isOk hzs' hl'
          rw [hl1, hl1']
          simp only [Exc.ok_bind]
          have hno : ∀ {c : DataArray}, (∀ d ∈ c.dims, d ∈ du.1 ∨ "*" ∈ du.1) →
              ¬ (c.dims.filter (fun d => d ∉ du.1) ≠ [] ∧ "*" ∉ du.1) := by
            rintro c hc ⟨hne, hst⟩
            apply hne
            rw [List.filter_eq_nil_iff]
            intro d hd
            simpa using (hc d hd).resolve_right hst
          rw [if_neg (hno (hdims _ hq)), if_neg (hno (hdims' _ hq'))]
          have hsub : ∀ {s : State} {q}, q ∈ requested s P → q ∈ requested s ((n, p) :: P) := by
            intro s q hq
            obtain ⟨kv, hkv, k1, k2⟩ := mem_requested.1 hq
            exact mem_requested.2 ⟨kv, List.mem_cons_of_mem _ hkv, k1, k2⟩
          refine ih (fun kv hkv => hmv kv (List.mem_cons_of_mem _ hkv)) (fun q hq => hlen q (hsub hq))
            (fun q hq => hlen' q (hsub hq)) (fun q hq => hdims q (hsub hq)) (fun q hq => hdims' q (hsub hq)) ?_ ?_
          · intro d m hd
            rcases (learnLens_ok hl1).2.2 d m hd with h | h
            · exact hl d m h
            · exact hzs d m h
          · intro d m hd
            rcases (learnLens_ok hl1').2.2 d m hd with h | h
            · exact hl' d m h
            · exact hzs' d m h

theorem rawInputs_columns {w w' : List String} {l l' : Dict Nat} {P : PropDict} {o o' : Dict NDArray}
    (h : ∀ kv ∈ P, Exc.Rel (fun _ _ => True) (rawInput R s w l kv.1 kv.2) (rawInput R s' w' l' kv.1 kv.2)) :
    Exc.Rel (fun _ _ => True) (rawInputs R s w l P o) (rawInputs R s' w' l' P o') := by
  induction P generalizing o o' with
  | nil => trivial
  | cons kv P ih =>
    obtain ⟨n, p⟩ := kv
    unfold rawInputs
    exact (h _ List.mem_cons_self).bind fun _ _ _ => ih fun kv hkv => h kv (List.mem_cons_of_mem _ hkv)

theorem SameColumns.fits (h : SameColumns H φ L L' props s s') :
    (∀ q ∈ requested s props, ∀ d ∈ q.1.dims, d ∈ q.2 ∨ "*" ∈ q.2) ∧
    ∀ q ∈ requested s' props, ∀ d ∈ q.1.dims, d ∈ q.2 ∨ "*" ∈ q.2 := by
  constructor
  · intro q hq d hd
    by_contra hc
    rw [not_or] at hc
    exact h.flat q hq hc.2 d hd (h.wild d (mem_wildSpec.2 ⟨q, hq, hd, hc.1⟩))
  · intro q hq d hd
    by_contra hc
    rw [not_or] at hc
    exact h.flat' q hq hc.2 d hd (h.wild' d (mem_wildSpec.2 ⟨q, hq, hd, hc.1⟩))

/-- The conversion of an entry succeeds if its units convert. -/
theorem rawInput_accepted {P : PropDict} {wl : Option (List String) × Dict Nat} (hR : R.Faithful) (hwf : s.WF)
    (hsf : s.StarFree) (hnd : ∀ kv ∈ P, ∀ d, kv.2.dims = some d → d.Nodup)
    (hdisj : ∀ kv ∈ P, ∀ ds, kv.2.dims = some ds → "*" ∈ ds → ∀ d ∈ wildSpec (requested s P), d ∉ ds)
    (hw : getWildcard s P = .ok wl) {kv : String × QProps} (hkv : kv ∈ P) {units own : String} {a : DataArray} {ua ub : PintUnit}
    (h2 : kv.2.units = some units) (h3 : Dict.get? s kv.1 = some (.da a)) (h4 : a.attrs.get? "units" = some own)
    (h5 : R.parse own = some ua) (h6 : R.parse units = some ub) (h7 : ua.dim = ub.dim) :
    ∃ r, rawInput R s (wl.1.getD []) wl.2 kv.1 kv.2 = .ok r := by
  obtain ⟨inv, hwild, hnone⟩ := getWildcard_ok hwf hw
  obtain ⟨dims, units', a', h1, e2, e3, e4, e5⟩ := inv.entry kv hkv
  rw [h3] at e3; cases e3
  have hstar_wl : "*" ∈ dims → wl.1.getD [] = wildSpec (requested s P) := by
    intro hs
    rcases hwild with hwild | hwild
    · rw [hwild]; rfl
    · exact absurd hs (hnone.1 hwild kv hkv dims h1)
  by_cases hs : "*" ∈ dims
  · rw [hstar_wl hs]
    apply rawInput_isOk hR hwf h1 h2 h3 h4 h5 h6 h7 e4 _ (hsf _ _ h3) (hnd kv hkv dims h1)
    · exact nodup_wildSpec _
    · exact fun hs => hdisj kv hkv dims h1 hs
    · intro d hd
      by_cases hin : d ∈ dims
      · exact Or.inl hin
      · exact Or.inr ⟨hs, mem_wildSpec.2 ⟨(a, dims), mem_requested.2 ⟨kv, hkv, h3, h1⟩, hd, hin⟩⟩
  · have : rawInput R s (wl.1.getD []) wl.2 kv.1 kv.2 = rawInput R s [] wl.2 kv.1 kv.2 := by
      unfold rawInput
      rw [(ensureDimsUnits_ok (du := (dims, units))).2 ⟨h1, h2⟩]
      simp only [Exc.ok_bind, if_neg hs]
    rw [this]
    apply rawInput_isOk hR hwf h1 h2 h3 h4 h5 h6 h7 e4 _ (hsf _ _ h3) (hnd kv hkv dims h1) (by simp)
    · exact fun h => absurd h hs
    · intro d hd
      exact Or.inl ((e5 d hd).resolve_right hs)

/-- **C97, acceptance.**  Both states are accepted, or both are refused with the same
exception. -/
theorem columns_accepted (hR : R.Faithful) (h : SameColumns H φ L L' props s s') :
    Exc.Rel (fun _ _ => True) (getNumpyArrays R s props) (getNumpyArrays R s' props) := by
  have hm := matchLoop_columns (w := []) (w' := []) (l := []) (l' := []) h.wf h.wf' (fun kv _ => h.moved kv.1) h.len h.len'
    h.fits.1 h.fits.2 (fun d m e => by cases e) (fun d m e => by cases e)
  have hw : Exc.Rel (fun _ _ => True) (getWildcard s props) (getWildcard s' props) := by
    unfold getWildcard
    refine hm.bind fun _ _ _ => ?_
    split <;> trivial
  unfold getNumpyArrays
  cases hw1 : getWildcard s props with
  | error e =>
    cases hw2 : getWildcard s' props with
    | error e' => rw [hw1, hw2] at hw; exact hw
    | ok wl => rw [hw1, hw2] at hw; exact hw.elim
  | ok wl =>
    cases hw2 : getWildcard s' props with
    | error e' => rw [hw1, hw2] at hw; exact hw.elim
    | ok wl' =>
      simp only [Exc.ok_bind]
      refine rawInputs_columns fun kv hkv => ?_
      obtain ⟨inv, -, -⟩ := getWildcard_ok h.wf hw1
      obtain ⟨dims, units, a, e1, e2, e3, -, -⟩ := inv.entry kv hkv
      obtain ⟨b, hb, hab⟩ := (h.moved kv.1).da e3
      have hbad : ∀ e, (∀ od l, getArray R a units od l = .error e) → (∀ od l, getArray R b units od l = .error e) →
          Exc.Rel (fun _ _ => True) (rawInput R s (wl.1.getD []) wl.2 kv.1 kv.2) (rawInput R s' (wl'.1.getD []) wl'.2 kv.1 kv.2) := by
        intro e ha hb'
        unfold rawInput
        rw [(ensureDimsUnits_ok (du := (dims, units))).2 ⟨e1, e2⟩, State.da_ok.2 e3, State.da_ok.2 hb]
        simp only [Exc.ok_bind, ha, hb']
        split <;> rfl
      cases hu : a.attrs.get? "units" with
      | none =>
        have hu' : b.attrs.get? "units" = none := hab.attrs ▸ hu
        exact hbad .invalidState (fun od l => by unfold getArray; rw [hu]) (fun od l => by unfold getArray; rw [hu'])
      | some own =>
        have hu' : b.attrs.get? "units" = some own := hab.attrs ▸ hu
        have ht := toUnits_attrs (R := R) hab.attrs units
        cases h1 : a.toUnits R units with
        | error e =>
          cases h2 : b.toUnits R units with
          | ok q => rw [h1, h2] at ht; exact ht.elim
          | error e' =>
            rw [h1, h2] at ht
            cases (show e = e' from ht)
            have hga : ∀ {c : DataArray}, c.attrs.get? "units" = some own → c.toUnits R units = .error e → ∀ od l,
                getArray R c units od l = .error (if e = .valueError then .invalidState else e) := by
              intro c hc hce od l
              unfold getArray
              rw [hc, hce]
              cases e <;> rfl
            exact hbad _ (hga hu h1) (hga hu' h2)
        | ok q =>
          obtain ⟨own', g1, _, _, g4, _⟩ := toUnits_ok hR h1
          rw [hu] at g1; cases g1
          obtain ⟨ub, ua, k2, k1, k3, _⟩ := g4 []
          obtain ⟨r, hr⟩ := rawInput_accepted hR h.wf h.star h.nodup
            (fun kv hkv ds hds _ d hd hin => h.named kv hkv ds hds d hin (h.wild d hd)) hw1 hkv e2 e3 hu k1 k2 k3.symm
          obtain ⟨r', hr'⟩ := rawInput_accepted hR h.wf' h.star' h.nodup
            (fun kv hkv ds hds _ d hd hin => h.named kv hkv ds hds d hin (h.wild' d hd)) hw2 hkv e2 hb hu' k1 k2 k3.symm
          rw [hr, hr']
          trivial

/-! ## Outputs -/

theorem restoreLoop_sameKeys {raw raw' : Dict NDArray} {outP inP : PropDict} {wild wild' : Option (List String)}
    {ign : List String} {ds : Dict (List String)} {lens lens' : Dict Nat} {out0 out0' out out' : Dict DataArray}
    (h : restoreLoop raw outP inP wild ign ds lens out0 = .ok out)
    (h' : restoreLoop raw' outP inP wild' ign ds lens' out0' = .ok out') (hk : out0.keys = out0'.keys) :
    out.keys = out'.keys := by
  induction ds generalizing lens lens' out0 out0' with
  | nil => cases h; cases h'; exact hk
  | cons nd ds ih =>
    unfold restoreLoop at h h'
    split at h
    · rename_i hi
      rw [if_pos hi] at h'
      exact ih h h' hk
    · rename_i hi
      rw [if_neg hi] at h'
      obtain ⟨r, _, h⟩ := Exc.bind_ok_iff.1 h
      obtain ⟨r', _, h'⟩ := Exc.bind_ok_iff.1 h'
      exact ih h h' (by rw [Dict.keys_set, Dict.keys_set, hk])

theorem restore_sameKeys {raw raw' : Dict NDArray} {outP inP : PropDict} {ign : List String} {out out' : Dict DataArray}
    (h : restoreDataArrays raw outP s inP ign false = .ok out)
    (h' : restoreDataArrays raw' outP s' inP ign false = .ok out') : out.keys = out'.keys := by
  unfold restoreDataArrays at h h'
  simp only [Bool.false_eq_true, if_false] at h h'
  obtain ⟨wl, _, h⟩ := Exc.bind_ok_iff.1 h
  obtain ⟨wl', _, h'⟩ := Exc.bind_ok_iff.1 h'
  obtain ⟨ds, hd, h⟩ := Exc.bind_ok_iff.1 h
  obtain ⟨ds', hd', h'⟩ := Exc.bind_ok_iff.1 h'
  rw [hd] at hd'
  cases hd'
  exact restoreLoop_sameKeys h h' rfl

theorem dictRel_of_keys {α β : Type} {r : α → β → Prop} {d : Dict α} {d' : Dict β} (hn : d.keys.Nodup)
    (hk : d.keys = d'.keys) (h : ∀ n a b, d.get? n = some a → d'.get? n = some b → r a b) : DictRel r d d' := by
  induction d generalizing d' with
  | nil =>
    cases d' with
    | nil => exact .nil
    | cons x l => simp at hk
  | cons x l ih =>
    cases d' with
    | nil => simp at hk
    | cons y l' =>
      obtain ⟨k, v⟩ := x
      obtain ⟨k', v'⟩ := y
      simp only [Dict.keys_cons, List.cons.injEq] at hk
      obtain ⟨rfl, hk⟩ := hk
      simp only [Dict.keys_cons, List.nodup_cons] at hn
      refine .cons ⟨rfl, h k v v' (by rw [Dict.get?_cons, if_pos rfl]) (by rw [Dict.get?_cons, if_pos rfl])⟩ (ih hn.2 hk fun n a b ha hb => ?_)
      have hne : k ≠ n := fun e => hn.1 (e ▸ Dict.mem_keys_of_get? ha)
      exact h n a b (by rw [Dict.get?_cons, if_neg hne, ha]) (by rw [Dict.get?_cons, if_neg hne, hb])

/-- **C97, outputs.**  Raw outputs with the columns the map says are given to the caller as
the same quantities on the second grid. -/
theorem columns_outputs {outP : PropDict} {ign : List String} (h : SameColumns H φ L L' props s s')
    (hg : GoodOutputs props outP) (hav : AvoidDims H props outP)
    (hin : ∃ out, getNumpyArrays R s props = .ok out) (hin' : ∃ out, getNumpyArrays R s' props = .ok out)
    {M : String → Nat} (hM : LenSpec (requested s props) M) {raw raw' : Dict NDArray}
    (ho : PickedOutputs props outP ign (fun n => getAliasOrName n outP props) M
      (size ((wildSpec (requested s props)).map L)) (size ((wildSpec (requested s' props)).map L'))
      (rowOf (wildSpec (requested s props)) (wildSpec (requested s' props)) L L' φ) raw raw') :
    ∃ out out', restoreDataArrays raw outP s props ign false = .ok out ∧
      restoreDataArrays raw' outP s' props ign false = .ok out' ∧ DictRel (Moved H φ) out out' := by
  classical
  obtain ⟨hn, hgood⟩ := hg
  obtain ⟨_, N, hN, ho⟩ := ho
  -- lengths of the output's dimensions on the two grids
  let K : String → Nat := fun d => if d ∈ H then L d else N d
  let K' : String → Nat := fun d => if d ∈ H then L' d else N d
  have hKw : (wildSpec (requested s props)).map K = (wildSpec (requested s props)).map L :=
    List.map_congr_left fun d hd => if_pos (h.wild d hd)
  have hKw' : (wildSpec (requested s' props)).map K' = (wildSpec (requested s' props)).map L' :=
    List.map_congr_left fun d hd => if_pos (h.wild' d hd)
  have hnamed : ∀ q ∈ requested s props, ∀ d ∈ q.1.dims, d ∉ H → N d = q.1.len d := by
    intro q hq d hd hdH
    obtain ⟨kv, hkv, k1, k2⟩ := mem_requested.1 hq
    have hin : d ∈ q.2 := by
      by_contra hin
      exact hdH (h.wild d (mem_wildSpec.2 ⟨q, hq, hd, hin⟩))
    rw [hN kv hkv q.2 k2 d hin fun e => h.star _ _ k1 (e ▸ hd), hM.1 q hq d hd]
  have hKq : ∀ q ∈ requested s props, ∀ d ∈ q.1.dims, K d = q.1.len d := by
    intro q hq d hd
    by_cases hdH : d ∈ H
    · rw [h.len q hq d hd]; exact if_pos hdH
    · rw [← hnamed q hq d hd hdH]; exact if_neg hdH
  have hKq' : ∀ q ∈ requested s' props, ∀ d ∈ q.1.dims, K' d = q.1.len d := by
    intro q hq d hd
    by_cases hdH : d ∈ H
    · rw [h.len' q hq d hd]; exact if_pos hdH
    · obtain ⟨q', hq', hmv, -⟩ := h.bwd hq
      have hd' := (hmv.named d hdH).2 hd
      rw [← hmv.len d hd' hdH, ← hnamed q' hq' d hd' hdH]
      exact if_neg hdH
  have hshape : ∀ {dims : List String} {W : List String} {K L : String → Nat}, (∀ d ∈ dims, d ∉ H) → W.map K = W.map L →
      (∀ d, d ∉ H → K d = N d) → (dims.map fun d => if d = "*" then size (W.map L) else N d) = specShape dims W K := by
    intro dims W K L hd hW hK
    unfold specShape
    rw [hW]
    refine List.map_congr_left fun d hdd => ?_
    split
    · rfl
    · exact (hK d (hd d hdd)).symm
  obtain ⟨r0, hr0⟩ := hin
  obtain ⟨r0', hr0'⟩ := hin'
  have hgrid := h.grid hr0
  obtain ⟨out, e1, f1⟩ := restored_values s props outP raw ign K h.wf hn ⟨R, r0, hr0⟩ hKq (by
    intro kv hkv hi
    obtain ⟨dims, units, g1, g2, g3, g4⟩ := hgood kv hkv
    obtain ⟨a, a', m1, m2, m3⟩ := ho kv hkv hi dims g1
    exact ⟨dims, units, a, g1, g2, g3, g4, m1, m3.shape.trans (hshape (hav kv hkv dims g1) hKw fun d hd => if_neg hd)⟩)
  obtain ⟨out', e2, f2⟩ := restored_values s' props outP raw' ign K' h.wf' hn ⟨R, r0', hr0'⟩ hKq' (by
    intro kv hkv hi
    obtain ⟨dims, units, g1, g2, g3, g4⟩ := hgood kv hkv
    obtain ⟨a, a', m1, m2, m3⟩ := ho kv hkv hi dims g1
    exact ⟨dims, units, a', g1, g2, g3, g4, m2, m3.shape'.trans (hshape (hav kv hkv dims g1) hKw' fun d hd => if_neg hd)⟩)
  refine ⟨out, out', e1, e2, dictRel_of_keys (restore_nodup e1) (restore_sameKeys e1 e2) fun n a b ha hb => ?_⟩
  have hk := (restore_keys hn e1 n).1 (Dict.mem_keys_of_get? ha)
  obtain ⟨p, hp⟩ := Dict.get?_of_mem_keys hk.1
  have hm := Dict.mem_of_get? hp
  obtain ⟨dims, units, x, da, a1, a2, a3, a4, a5, a6, a7, a8⟩ := f1 _ hm hk.2
  obtain ⟨dims', units', y, db, b1, b2, b3, b4, b5, b6, b7, b8⟩ := f2 _ hm hk.2
  rw [a1] at b1; cases b1
  rw [a2] at b2; cases b2
  obtain ⟨x', y', m1, m2, m3⟩ := ho _ hm hk.2 dims a1
  rw [m1] at a3; cases a3
  rw [m2] at b3; cases b3
  rw [a4] at ha; cases ha
  rw [b4] at hb; cases hb
  have hdH := hav _ hm dims a1
  have hnm : ∀ d, d ∉ H → (d ∈ a.dims ↔ d ∈ b.dims) := by
    intro d hd
    rw [a6, b6, mem_outDimsSpec, mem_outDimsSpec]
    constructor
    · rintro (h1 | ⟨h1, h2⟩)
      · exact .inl h1
      · exact absurd (h.wild d h2) hd
    · rintro (h1 | ⟨h1, h2⟩)
      · exact .inl h1
      · exact absurd (h.wild' d h2) hd
  refine ⟨by rw [a5, b5], hnm, fun d hd hdn => ?_, fun ix hix => ?_⟩
  · rw [len_of_shape a7 hd, len_of_shape b7 ((hnm d hdn).1 hd)]
    exact (if_neg hdn).trans (if_neg hdn).symm
  · have hlt : ∀ d ∈ b.dims, ix d < K' d := fun d hd => by rw [← len_of_shape b7 hd]; exact hix d hd
    have hwl : "*" ∈ dims → ∀ d ∈ wildSpec (requested s' props), ix d < L' d := fun hs d hd => by
      have := hlt d (by rw [b6]; exact mem_outDimsSpec.2 (.inr ⟨hs, hd⟩))
      exact lt_of_lt_of_eq this (if_pos (h.wild' d hd))
    have hal : ∀ d ∈ a.dims, φ ix d < K d := by
      intro d hd
      by_cases hdn : d ∈ H
      · rw [a6, mem_outDimsSpec] at hd
        rcases hd with ⟨h1, -⟩ | ⟨h1, h2⟩
        · exact absurd hdn (hdH d h1)
        · exact lt_of_lt_of_eq (hgrid.inside ix (hwl h1) d h2) (if_pos hdn).symm
      · rw [hgrid.rest ix d hdn]
        exact lt_of_lt_of_eq (hlt d ((hnm d hdn).1 hd)) ((if_neg hdn).trans (if_neg hdn).symm)
    rw [b8 ix (by rw [b7]; exact inB_map_lt hlt), a8 (φ ix) (by rw [a7]; exact inB_map_lt hal)]
    have i1 : specIndex dims (wildSpec (requested s' props)) K' ix = dims.map fun d => if d = "*" then
        ravel ((wildSpec (requested s' props)).map L') ((wildSpec (requested s' props)).map ix) else ix d := by
      unfold specIndex; rw [hKw']
    rw [i1, m3.val _ ix (fun hs => ravel_lt (inB_map_lt (hwl hs))) (fun d hd hs => ?_)]
    · congr 1
      unfold specIndex
      rw [hKw]
      refine List.map_congr_left fun d hd => ?_
      split
      · rename_i hs
        exact rowOf_ravel hgrid (hwl (hs ▸ hd))
      · exact (hgrid.rest ix d (hdH d hd)).symm
    · have := hlt d (by rw [b6]; exact mem_outDimsSpec.2 (.inl ⟨hd, hs⟩))
      exact lt_of_lt_of_eq this (if_neg (hdH d hd))

/-! ## Calls -/

theorem insertTendencies_rel {r : DataArray → DataArray → Prop} (inst : String) {d d' e e' : Dict DataArray}
    (hd : DictRel r d d') (he : DictRel r e e') : DictRel r (insertTendencies inst d e) (insertTendencies inst d' e') := by
  induction hd generalizing e e' with
  | nil => exact he
  | @cons a b l l' hab _ ih =>
    obtain ⟨k, v⟩ := a
    obtain ⟨k', v'⟩ := b
    obtain ⟨hk, hv⟩ := hab
    cases (show k = k' from hk)
    unfold insertTendencies
    exact ih (he.set _ hv)

/-- What `prepare` gives for the two states. -/
theorem prepare_columns (hR : R.Faithful) (g : Tracers) {c : Class} {i : Inst} (hc : PlainClass c i)
    (h : SameColumns H φ L L' c.inProps s s') :
    Exc.Rel (fun raw raw' => raw.time = raw'.time ∧
      (∃ out, getNumpyArrays R s c.inProps = .ok out) ∧ (∃ out, getNumpyArrays R s' c.inProps = .ok out) ∧
      ∃ M, LenSpec (requested s c.inProps) M ∧
        PickedInputs c.inProps M (size ((wildSpec (requested s c.inProps)).map L))
          (size ((wildSpec (requested s' c.inProps)).map L'))
          (rowOf (wildSpec (requested s c.inProps)) (wildSpec (requested s' c.inProps)) L L' φ) raw.arrays raw'.arrays)
      (prepare R g c i s) (prepare R g c i s') := by
  have hmem : ∀ n, n ∈ Dict.keys s ↔ n ∈ Dict.keys s' := by
    intro n
    have := (h.moved n).isSome
    constructor
    · intro hn
      obtain ⟨v, hv⟩ := Dict.get?_of_mem_keys hn
      rw [hv] at this
      obtain ⟨w, hw⟩ := Option.isSome_iff_exists.1 this.symm
      exact Dict.mem_keys_of_get? hw
    · intro hn
      obtain ⟨v, hv⟩ := Dict.get?_of_mem_keys hn
      rw [hv] at this
      obtain ⟨w, hw⟩ := Option.isSome_iff_exists.1 this
      exact Dict.mem_keys_of_get? hw
  have hchk : checkInputs c.inProps s = checkInputs c.inProps s' := by
    unfold checkInputs
    simp only [hmem]
  have htime : Dict.get s "time" = Dict.get s' "time" := by
    unfold Dict.get
    have := h.moved "time"
    cases h1 : Dict.get? s "time" with
    | none =>
      rw [h1] at this
      cases h2 : Dict.get? s' "time" with
      | none => rfl
      | some w => rw [h2] at this; exact this.elim
    | some v =>
      cases v with
      | da a => exact absurd h1 (h.time a)
      | time t =>
        rw [h1] at this
        cases h2 : Dict.get? s' "time" with
        | none => rw [h2] at this; exact this.elim
        | some w =>
          rw [h2] at this
          cases w with
          | da a => exact this.elim
          | time t' => cases (show t = t' from this); rfl
  unfold prepare
  rw [hchk, htime, hc.packer]
  cases checkInputs c.inProps s' with
  | error e => rfl
  | ok u =>
    simp only [Exc.ok_bind]
    have hacc := columns_accepted hR h
    cases hg : getNumpyArrays R s c.inProps with
    | error e =>
      cases hg' : getNumpyArrays R s' c.inProps with
      | error e' => rw [hg, hg'] at hacc; exact hacc
      | ok out' => rw [hg, hg'] at hacc; exact hacc.elim
    | ok out =>
      cases hg' : getNumpyArrays R s' c.inProps with
      | error e' => rw [hg, hg'] at hacc; exact hacc.elim
      | ok out' =>
        simp only [Exc.ok_bind]
        cases Dict.get s' "time" with
        | error e => rfl
        | ok t => exact ⟨rfl, ⟨_, rfl⟩, ⟨_, rfl⟩, columns_inputs hR hc.one hc.keys h hg hg'⟩

theorem call_columns {σ β : Type} (hR : R.Faithful) (g : Tracers) {c : Class} {i : Inst} (hc : PlainClass c i)
    {P1 P2 : PropDict} {ign1 ign2 : List String} {ac : σ → RawState → σ × Except Err (Dict NDArray × Dict NDArray)}
    (hac : ColumnWise c.inProps P1 P2 ign1 ign2 ac) (h : SameColumns H φ L L' c.inProps s s') (x : σ)
    (h1 : GoodOutputs c.inProps P1) (h2 : GoodOutputs c.inProps P2)
    (v1 : AvoidDims H c.inProps P1) (v2 : AvoidDims H c.inProps P2)
    {fin : State → Dict NDArray → Dict NDArray → Dict NDArray → Except Err β} {Q : β → β → Prop}
    (hfin : ∀ r r' : Dict NDArray × Dict NDArray, ∀ w w', r.1.keys = r'.1.keys → r.2.keys = r'.2.keys →
      (∃ t t', restoreDataArrays r.1 P1 s c.inProps ign1 false = .ok t ∧
        restoreDataArrays r'.1 P1 s' c.inProps ign1 false = .ok t' ∧ DictRel (Moved H φ) t t') →
      (∃ t t', restoreDataArrays r.2 P2 s c.inProps ign2 false = .ok t ∧
        restoreDataArrays r'.2 P2 s' c.inProps ign2 false = .ok t' ∧ DictRel (Moved H φ) t t') →
      Exc.Rel Q (fin s w r.1 r.2) (fin s' w' r'.1 r'.2)) :
    let call : State → σ × Except Err β := fun s => match prepare R g c i s with
      | .error e => (x, .error e)
      | .ok raw => ((ac x raw).1, (ac x raw).2 >>= fun r => fin s raw.arrays r.1 r.2)
    (call s).1 = (call s').1 ∧ Exc.Rel Q (call s).2 (call s').2 := by
  dsimp only
  have hp := prepare_columns hR g hc h
  revert hp
  cases prepare R g c i s with
  | error e =>
    cases prepare R g c i s' with
    | error e' => exact fun hp => ⟨rfl, hp⟩
    | ok raw' => exact fun hp => hp.elim
  | ok raw =>
    cases prepare R g c i s' with
    | error e' => exact fun hp => hp.elim
    | ok raw' =>
      rintro ⟨ht, hi, hi', M, hM, hin⟩
      obtain ⟨hx, hr⟩ := hac M _ _ _ x raw raw' (fun p hp => rowOf_lt (h.grid hi.choose_spec) hp) ht hin
      refine ⟨hx, hr.bind ?_⟩
      rintro r r' ⟨hr1, hr2⟩
      exact hfin r r' raw.arrays raw'.arrays hr1.1 hr2.1 (columns_outputs h h1 v1 hi hi' hM hr1)
        (columns_outputs h h2 v2 hi hi' hM hr2)

/-- **C97.**  A component that works column by column, called with the same columns on
another grid, changes the world the same way and returns for each column what it returned on
the first grid, or raises the same exception. -/
theorem components_column_wise {σ : Type} (hR : R.Faithful) (g : Tracers) {c : Class} {i : Inst} (hc : PlainClass c i)
    (ho : AvoidDims H c.inProps c.outProps) (hd : AvoidDims H c.inProps c.diagProps)
    (h : SameColumns H φ L L' c.inProps s s') (x : σ) :
    (∀ ac, ColumnWise c.inProps c.outProps c.diagProps [] i.ignored ac →
      (callTendency R g c i ac x s).1 = (callTendency R g c i ac x s').1 ∧
      Exc.Rel (fun r r' => DictRel (Moved H φ) r.1 r'.1 ∧ DictRel (Moved H φ) r.2 r'.2)
        (callTendency R g c i ac x s).2 (callTendency R g c i ac x s').2) ∧
    (∀ ac (dt : Int), i.tid = false → ColumnWise c.inProps c.diagProps c.outProps [] [] (fun x raw => ac x raw dt) →
      (callStepper R g c i ac x s dt).1 = (callStepper R g c i ac x s' dt).1 ∧
      Exc.Rel (fun r r' => DictRel (Moved H φ) r.1 r'.1 ∧ DictRel (Moved H φ) r.2 r'.2)
        (callStepper R g c i ac x s dt).2 (callStepper R g c i ac x s' dt).2) ∧
    (∀ ac, ColumnWise c.inProps c.diagProps [] [] [] (fun x raw => ((ac x raw).1, (ac x raw).2 >>= fun d => .ok (d, []))) →
      (callDiagnostic R g c i ac x s).1 = (callDiagnostic R g c i ac x s').1 ∧
      Exc.Rel (DictRel (Moved H φ)) (callDiagnostic R g c i ac x s).2 (callDiagnostic R g c i ac x s').2) := by
  refine ⟨fun ac hac => ?_, fun ac dt htid hac => ?_, fun ac hac => ?_⟩
  · refine call_columns hR g hc hac h x hc.outs hc.diags ho hd (fin := fun s _ r1 r2 => finishTendency g c i s r1 r2) ?_
    intro r r' _ _ k1 k2 ⟨t, t', e1, e2, e3⟩ ⟨d, d', f1, f2, f3⟩
    unfold finishTendency takeTracers
    rw [hc.packer]
    simp only [Exc.ok_bind]
    rw [checkRaw_keys k1, checkRaw_keys k2]
    cases checkRaw c.inProps c.outProps [] r'.1 with
    | error e => rfl
    | ok _ =>
      cases checkRaw c.inProps c.diagProps i.ignored r'.2 with
      | error e => rfl
      | ok _ =>
        simp only [Exc.ok_bind]
        rw [e1, e2, f1, f2]
        simp only [Exc.ok_bind]
        have hu : DictRel (Moved H φ) (Dict.update [] t) (Dict.update [] t') := DictRel.update .nil e3
        refine ⟨hu, ?_⟩
        dsimp only
        split
        · exact insertTendencies_rel _ hu f3
        · exact f3
  · refine call_columns hR g hc hac h x hc.diags hc.outs hd ho
      (fin := fun s w r1 r2 => finishStepper g c i s dt w r1 r2) ?_
    intro r r' _ _ k1 k2 ⟨d, d', f1, f2, f3⟩ ⟨t, t', e1, e2, e3⟩
    unfold finishStepper takeTracers
    rw [hc.packer, htid]
    simp only [Exc.ok_bind]
    rw [checkRaw_keys k1, checkRaw_keys k2]
    cases checkRaw c.inProps c.diagProps i.ignored r'.1 with
    | error e => rfl
    | ok _ =>
      cases checkRaw c.inProps c.outProps [] r'.2 with
      | error e => rfl
      | ok _ =>
        simp only [Exc.ok_bind, Bool.false_eq_true, if_false]
        rw [e1, e2, f1, f2]
        exact ⟨f3, DictRel.update .nil e3⟩
  · have := call_columns hR g hc hac h x hc.diags ⟨List.nodup_nil, fun kv hkv => (by cases hkv)⟩ hd
      (fun kv hkv => by cases hkv)
      (fin := fun s _ r1 _ => finishDiagnostic c i s r1) (Q := DictRel (Moved H φ)) (by
        intro r r' _ _ k1 k2 ⟨d, d', f1, f2, f3⟩ _
        unfold finishDiagnostic
        rw [checkRaw_keys k1, f1, f2]
        cases checkRaw c.inProps c.diagProps i.ignored r'.1 with
        | error e => rfl
        | ok _ => exact f3)
    have hb : ∀ (y : Except Err (Dict NDArray)) (s : State), ((y >>= fun d => .ok (d, [])) >>= fun r : Dict NDArray × Dict NDArray =>
        finishDiagnostic c i s r.1) = (y >>= fun r => finishDiagnostic c i s r) := by
      intro y s
      cases y <;> rfl
    simp only [hb] at this
    exact this

end

namespace Demo

/-- Three columns of `temp` in a list: (x, y) = (1, 0), (0, 1) and (1, 0) again. -/
def tempC : DataArray :=
  { dims := ["col", "z"]
    arr := ⟨[3, 3], fun i => ((i.getD 0 0 + 1) % 2 : Nat) * 100 + (i.getD 1 0 : Nat) * 10 + (i.getD 0 0 % 2 : Nat)⟩
    attrs := [("units", "K"), ("long_name", "temperature")] }

def stateC : State := [("h", .da prof), ("time", .time 0), ("T", .da tempC)]

def across : List String := ["x", "y", "col"]

def colOf (ix : String → Nat) (d : String) : Nat :=
  if d = "x" then (ix "col" + 1) % 2 else if d = "y" then ix "col" % 2 else ix d

def gridL : String → Nat := fun d => if d = "x" ∨ d = "y" then 2 else 3
def listL : String → Nat := fun _ => 3

theorem colOf_rest (ix : String → Nat) (d : String) (h : d ∉ across) : colOf ix d = ix d := by
  unfold across at h
  simp only [List.mem_cons, not_or] at h
  unfold colOf
  rw [if_neg h.1, if_neg h.2.1]

theorem temp_columns : Moved across colOf temp tempC where
  attrs := rfl
  named := by
    intro d h
    unfold across at h
    simp only [List.mem_cons, not_or] at h
    simp [temp, tempC, h.1, h.2.1, h.2.2.1]
  len := by decide +kernel
  val := fun _ _ => rfl

theorem prof_columns : Moved across colOf prof prof where
  attrs := rfl
  named := fun _ _ => Iff.rfl
  len := fun _ _ _ => rfl
  val := fun _ _ => rfl

theorem stateC_columns : SameColumns across colOf gridL listL cls.inProps state stateC where
  moved := by
    intro n
    unfold state stateC
    simp only [Dict.get?_cons]
    by_cases h1 : n = "T"
    · subst h1; exact temp_columns
    by_cases h2 : n = "h"
    · subst h2; exact prof_columns
    by_cases h3 : n = "time"
    · subst h3; rfl
    rw [if_neg (Ne.symm h1), if_neg (Ne.symm h2), if_neg (Ne.symm h3), if_neg (Ne.symm h2), if_neg (Ne.symm h3),
      if_neg (Ne.symm h1)]
    trivial
  wf := state_wf
  wf' := by
    intro n a h
    have := Dict.mem_of_get? h
    simp only [stateC, List.mem_cons, Prod.mk.injEq, List.not_mem_nil, or_false] at this
    rcases this with h | h | h
    · obtain ⟨_, h⟩ := h; cases h; exact ⟨rfl, by decide⟩
    · obtain ⟨_, h⟩ := h; cases h
    · obtain ⟨_, h⟩ := h; cases h; exact ⟨rfl, by decide⟩
  star := state_axes.star
  star' := by
    intro n a h
    have := Dict.mem_of_get? h
    simp only [stateC, List.mem_cons, Prod.mk.injEq, List.not_mem_nil, or_false] at this
    rcases this with h | h | h
    · obtain ⟨_, h⟩ := h; cases h; decide
    · obtain ⟨_, h⟩ := h; cases h
    · obtain ⟨_, h⟩ := h; cases h; decide
  time := fun a h => by cases h
  nodup := state_axes.dims.nodup
  named := by
    have : ∀ kv ∈ cls.inProps, ∀ ds ∈ kv.2.dims.toList, ∀ d ∈ ds, d ∉ across := by decide
    exact fun kv hkv ds hd => this kv hkv ds (by rw [hd]; simp)
  flat := by decide +kernel
  flat' := by decide +kernel
  wild := by decide +kernel
  wild' := by decide +kernel
  len := by decide +kernel
  len' := by decide +kernel
  regrid := by
    have h1 : wildSpec (requested state cls.inProps) = ["x", "y"] := by decide +kernel
    have h2 : wildSpec (requested stateC cls.inProps) = ["col"] := by decide +kernel
    intro _
    rw [h1, h2]
    refine ⟨fun ix h d hd => ?_, fun ix jx h d hd => ?_, colOf_rest⟩
    · simp only [List.mem_cons, List.not_mem_nil, or_false] at hd
      rcases hd with rfl | rfl
      · exact Nat.mod_lt _ (by decide)
      · exact Nat.mod_lt _ (by decide)
    · have hc := h "col" (by simp)
      simp only [List.mem_cons, List.not_mem_nil, or_false] at hd
      unfold colOf
      rcases hd with rfl | rfl <;> simp [hc]

/-- Every level is forced by the sum over its column. -/
def acCol : Nat → RawState → Nat × Except Err (Dict NDArray × Dict NDArray) := fun n raw =>
  (n + 1, raw.arrays.get "temp" >>= fun t => raw.arrays.get "h" >>= fun h =>
    .ok ([("temp", ⟨t.shape, fun idx => ((List.range (t.shape.getD 0 0)).map fun k => t.get [k, idx.getD 1 0]).sum - t.get idx⟩)],
      [("h2", h)]))

theorem acCol_columnWise : ColumnWise cls.inProps cls.outProps cls.diagProps [] [] acCol := by
  intro L N N' ρ s raw raw' _ _ hin
  obtain ⟨a, a', h1, h2, h3⟩ := hin.2 ("T", _) List.mem_cons_self ["z", "*"] rfl
  obtain ⟨b, b', k1, k2, k3⟩ := hin.2 ("h", _) (List.mem_cons_of_mem _ List.mem_cons_self) ["z"] rfl
  have e1 : raw.arrays.get "temp" = .ok a := Dict.get_eq_ok.2 h1
  have e2 : raw'.arrays.get "temp" = .ok a' := Dict.get_eq_ok.2 h2
  have e3 : raw.arrays.get "h" = .ok b := Dict.get_eq_ok.2 k1
  have e4 : raw'.arrays.get "h" = .ok b' := Dict.get_eq_ok.2 k2
  unfold acCol
  rw [e1, e2, e3, e4]
  have s1 : a.shape.getD 0 0 = L "z" := by rw [h3.shape]; rfl
  have s2 : a'.shape.getD 0 0 = L "z" := by rw [h3.shape']; rfl
  refine ⟨rfl, ⟨rfl, L, fun _ _ _ _ _ _ _ => rfl, ?_⟩, ⟨rfl, L, fun _ _ _ _ _ _ _ => rfl, ?_⟩⟩
  · intro kv hkv _ dims hd
    simp only [cls, List.mem_singleton] at hkv
    subst hkv
    cases hd
    refine ⟨_, _, rfl, rfl, h3.shape, h3.shape', fun p ix hp hix => ?_⟩
    show ((List.range (a'.shape.getD 0 0)).map fun k => a'.get [k, p]).sum - a'.get [ix "z", p]
      = ((List.range (a.shape.getD 0 0)).map fun k => a.get [k, ρ p]).sum - a.get [ix "z", ρ p]
    have hv : ∀ k < L "z", a'.get [k, p] = a.get [k, ρ p] := fun k hk =>
      h3.val p (fun _ => k) hp (fun d hd hs => by
        simp only [List.mem_cons, List.not_mem_nil, or_false] at hd
        rcases hd with rfl | rfl
        · exact hk
        · exact absurd rfl hs)
    rw [s1, s2, hv _ (hix "z" (by simp) (by decide))]
    congr 2
    exact List.map_congr_left fun k hk => hv k (List.mem_range.1 hk)
  · intro kv hkv _ dims hd
    simp only [cls, List.mem_singleton] at hkv
    subst hkv
    cases hd
    exact ⟨_, _, rfl, rfl, k3⟩

theorem cls_avoids : AvoidDims across cls.inProps cls.outProps ∧ AvoidDims across cls.inProps cls.diagProps := by
  constructor
  · have : ∀ kv ∈ cls.outProps, ∀ ds ∈ (effDims cls.inProps kv.1 kv.2).toList, ∀ d ∈ ds, d ∉ across := by decide
    exact fun kv hkv ds hd => this kv hkv ds (by rw [hd]; simp)
  · have : ∀ kv ∈ cls.diagProps, ∀ ds ∈ (effDims cls.inProps kv.1 kv.2).toList, ∀ d ∈ ds, d ∉ across := by decide
    exact fun kv hkv ds hd => this kv hkv ds (by rw [hd]; simp)

end Demo

open Demo in
/-- The tendency of the columns in the list is that of the columns of the grid. -/
example : Exc.Rel (fun r r' => DictRel (Moved across colOf) r.1 r'.1 ∧ DictRel (Moved across colOf) r.2 r'.2)
      (callTendency reg {} cls plainInst acCol 0 state).2 (callTendency reg {} cls plainInst acCol 0 stateC).2 ∧
    Exc.test (callTendency reg {} cls plainInst acCol 0 state).2
      (fun r => (r.1.get? "T").map (fun a => (a.dims, a.arr.get [2, 1, 0], a.arr.get [2, 0, 1])) == some (["z", "x", "y"], 210, 12)) = true ∧
    Exc.test (callTendency reg {} cls plainInst acCol 0 stateC).2
      (fun r => (r.1.get? "T").map (fun a => (a.dims, a.arr.get [2, 0], a.arr.get [2, 1])) == some (["z", "col"], 210, 12)) = true :=
  ⟨((components_column_wise reg_faithful {} cls_plain cls_avoids.1 cls_avoids.2 stateC_columns 0).1 acCol acCol_columnWise).2,
    by decide +kernel, by decide +kernel⟩

end Verif
