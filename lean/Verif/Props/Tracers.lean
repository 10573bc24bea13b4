import Verif.Lemmas.Tracers
import Verif.Spec.Tracers
import Verif.Spec.Demo
import Verif.Props.RestoreArrays
/-!
# C21 – C25: tracers
-/

namespace Verif

/-- In every history the registered names are the keys of the unit table. -/
theorem tracer_globals_consistent (R : Registry) (ops : List TOp) (g : Tracers)
    (h1 : g.units.keys.Nodup) (h2 : ∀ n, n ∈ g.names ↔ n ∈ g.units.keys) :
    (runOps R g ops).units.keys.Nodup ∧
    ∀ n, n ∈ (runOps R g ops).names ↔ n ∈ (runOps R g ops).units.keys := by
  induction ops generalizing g with
  | nil => exact ⟨h1, h2⟩
  | cons op ops ih =>
    unfold runOps
    apply ih
    · cases op with
      | register n u =>
        simp only [TOp.run, registerTracer]
        split
        · exact h1
        · exact Dict.nodup_keys_set h1 _ _
      | create o d p =>
        simp only [TOp.run, createPacker]
        split
        · exact h1
        · exact h1
      | resetTracers => simp [TOp.run, resetTracers]
      | resetPackers => exact h1
    · cases op with
      | register n u =>
        simp only [TOp.run, registerTracer]
        split
        · exact h2
        · intro m
          simp only [List.mem_append, List.mem_singleton, Dict.mem_keys_set, h2]
          exact or_comm
      | create o d p =>
        simp only [TOp.run, createPacker]
        split
        · exact h2
        · exact h2
      | resetTracers => simp [TOp.run, resetTracers]
      | resetPackers => exact h2

/-- The registered names are exactly the registrations, when no call raised. -/
theorem names_eq_registrations (R : Registry) (ops : List TOp) (g : Tracers)
    (acc : List (String × String)) (hacc : g.names = acc.map (·.1)) (hok : allOk R g ops) :
    (runOps R g ops).names = (registrations ops acc).map (·.1) := by
  induction ops generalizing g acc with
  | nil => exact hacc
  | cons op ops ih =>
    obtain ⟨ho, hok⟩ := hok
    cases op with
    | register n u =>
      simp only [runOps, registrations]
      apply ih _ _ _ hok
      simp only [TOp.run, registerTracer] at ho ⊢
      split
      · rename_i he; rw [he] at ho; simp [Except.toBool] at ho
      · simp [hacc]
    | create o d p =>
      simp only [runOps, registrations]
      apply ih _ _ _ hok
      simp only [TOp.run, createPacker]
      split <;> exact hacc
    | resetTracers =>
      simp only [runOps, registrations]
      exact ih _ _ (by simp [TOp.run, resetTracers]) hok
    | resetPackers =>
      simp only [runOps, registrations]
      exact ih _ _ hacc hok

/-- **C22, order.**  After any history in which no call raised, a packer lists its
prepended tracers first (in the given order) and then the registered tracers
that are not prepended, in order of first registration, each exactly once. -/
theorem tracer_order (R : Registry) (ops : List TOp) (p : Packer)
    (hok : allOk R {} ops) (hp : (p.prepend.map (·.1)).Nodup) :
    tracerNames (runOps R {} ops) p = p.prepend.map (·.1) ++
      (((registrations ops []).map (·.1)).filter (fun n => n ∉ p.prepend.map (·.1))).eraseDups ∧
    (tracerNames (runOps R {} ops) p).Nodup ∧
    ∀ n, n ∈ tracerNames (runOps R {} ops) p ↔
      n ∈ p.prepend.map (·.1) ∨ n ∈ (registrations ops []).map (·.1) := by
  have he : tracerNames (runOps R {} ops) p = p.prepend.map (·.1) ++
      (((registrations ops []).map (·.1)).filter (fun n => n ∉ p.prepend.map (·.1))).eraseDups := by
    unfold tracerNames
    rw [addNew_spec, names_eq_registrations R ops {} [] rfl hok]
  refine ⟨he, ?_, ?_⟩
  · rw [he, List.nodup_append]
    refine ⟨hp, nodup_eraseDups _, ?_⟩
    intro a ha b hb hab
    subst hab
    rw [List.mem_eraseDups, List.mem_filter] at hb
    simp at hb
    simp at ha
    obtain ⟨x, hx⟩ := ha
    exact hb.2 x hx
  · intro n
    rw [he, List.mem_append, List.mem_eraseDups, List.mem_filter]
    by_cases h : n ∈ p.prepend.map (·.1) <;> simp [h]

/-- Non-vacuity of C22: a repeated registration and a prepended registered tracer. -/
example : allOk Demo.reg {} [.register "qv" "kg kg^-1", .register "qc" "kg kg^-1",
      .register "qv" "kg kg^-1"] ∧
    tracerNames (runOps Demo.reg {} [.register "qv" "kg kg^-1", .register "qc" "kg kg^-1",
      .register "qv" "kg kg^-1"]) { prepend := [("qi", "g kg^-1"), ("qc", "kg kg^-1")], dims := ["tracer", "*"], outNames := [] }
      = ["qi", "qc", "qv"] := by
  refine ⟨⟨?_, ?_, ?_, trivial⟩, ?_⟩ <;> decide +kernel

/-- Prepended and registered tracers of a packer in a consistent tracer table. -/
theorem mem_tracerNames {g : Tracers} (hg : ∀ n, n ∈ g.names ↔ n ∈ g.units.keys) (p : Packer)
    (n : String) : n ∈ tracerNames g p ↔ n ∈ (tracerReq g p).keys := by
  unfold tracerNames tracerReq
  rw [addNew_spec, mem_keys_tracerProps, List.mem_append, List.mem_eraseDups, List.mem_filter, ← hg]
  by_cases h : n ∈ p.prepend.map (·.1) <;> simp [h]

theorem nodup_tracerNames (g : Tracers) (p : Packer) (hp : (p.prepend.map (·.1)).Nodup) :
    (tracerNames g p).Nodup := by
  unfold tracerNames
  rw [addNew_spec, List.nodup_append]
  refine ⟨hp, nodup_eraseDups _, ?_⟩
  intro a ha b hb hab
  subst hab
  rw [List.mem_eraseDups, List.mem_filter] at hb
  simp at hb
  simp at ha
  obtain ⟨x, hx⟩ := ha
  exact hb.2 x hx

/-- **C22, slices.**  The `i`-th slice of a packed array along the tracer axis
belongs to the `i`-th tracer: at every named coordinate it holds the state's
value of that tracer in the tracer's units, and the array has one axis per entry
of `tracer_dims`, the tracer axis having one position per tracer.  All this for
every reachable tracer table. -/
theorem packed_slices (R : Registry) (hR : R.Faithful) (ops : List TOp) (p : Packer)
    (state : State) (arr : NDArray) (hwf : state.WF) (hsf : state.StarFree)
    (hdims : p.dims.count "tracer" = 1) (hstar : p.dims.count "*" ≤ 1)
    (hp : (p.prepend.map (·.1)).Nodup) (hne : tracerNames (runOps R {} ops) p ≠ [])
    (h : p.pack R (runOps R {} ops) state = .ok arr) :
    ∃ L, LenSpec (requested state (tracerReq (runOps R {} ops) p)) L ∧
      arr.shape = tracerShape p.dims (wildSpec (requested state (tracerReq (runOps R {} ops) p))) L
        (tracerNames (runOps R {} ops) p).length ∧
      ∀ i name, (tracerNames (runOps R {} ops) p)[i]? = some name →
        ∃ units a own, tracerUnits (runOps R {} ops) p name = some units ∧
          Dict.get? state name = some (.da a) ∧ a.attrs.get? "units" = some own ∧
          ∀ ix : String → Nat,
            InB (tracerIndex p.dims (wildSpec (requested state (tracerReq (runOps R {} ops) p))) L ix i) arr.shape →
            ("*" ∈ p.dims → ∀ d ∈ wildSpec (requested state (tracerReq (runOps R {} ops) p)), ix d < L d) →
            SamePhysical R units
              (arr.get (tracerIndex p.dims (wildSpec (requested state (tracerReq (runOps R {} ops) p))) L ix i))
              own (a.at' ix) := by
  obtain ⟨hg1, hg2⟩ := tracer_globals_consistent R ops {} (by simp) (by simp)
  generalize runOps R {} ops = g at *
  have htr : "tracer" ∈ p.dims := List.count_pos_iff.1 (by omega)
  unfold Packer.pack at h
  rw [quantityDims_ok htr] at h
  simp only [Exc.ok_bind] at h
  obtain ⟨raw, hraw, h⟩ := Exc.bind_ok_iff.1 h
  have hreq : tracerProps g p.prepend (p.dims.erase "tracer") = tracerReq g p := rfl
  rw [hreq] at hraw
  have hq : (p.dims.erase "tracer").erase "tracer" = p.dims.erase "tracer" :=
    List.erase_of_not_mem (not_mem_erase_of_count hdims)
  have hcount : (p.dims.erase "tracer").count "*" ≤ 1 := by
    rw [List.count_erase_of_ne (by decide)]; exact hstar
  have hone : OneStar (tracerReq g p) := by
    intro kv hkv d hd
    obtain ⟨u, hu⟩ := tracerProps_mem hkv
    rw [hu] at hd
    simp only [Option.some.injEq] at hd
    rw [← hd, hq]; exact hcount
  obtain ⟨wl, hw, inv, hwl, hst, hall⟩ := getNumpyArrays_full hR hwf hsf hone
    (by rw [show (tracerReq g p).map outName = _ from tracerProps_outName]
        exact tracerProps_nodup _ _ _) hraw
  have hnm := mem_tracerNames hg2 p
  set w := wildSpec (requested state (tracerReq g p)) with hwdef
  -- every listed tracer has a raw array
  have hent : ∀ n ∈ tracerNames g p, ∃ units a own r, tracerUnits g p n = some units ∧
      Dict.get? state n = some (.da a) ∧ a.attrs.get? "units" = some own ∧
      raw.get? n = some r ∧ r.shape = specShape (p.dims.erase "tracer") w (lenOr1 wl.2) ∧
      ∀ ix : String → Nat, (∀ d ∈ p.dims.erase "tracer", d ≠ "*" → ix d < lenOr1 wl.2 d) →
        ("*" ∈ p.dims.erase "tracer" → ∀ d ∈ w, ix d < lenOr1 wl.2 d) →
        SamePhysical R units (r.get (specIndex (p.dims.erase "tracer") w (lenOr1 wl.2) ix)) own (a.at' ix) := by
    intro n hn
    obtain ⟨q, hq'⟩ := Dict.get?_of_mem_keys ((hnm n).1 hn)
    obtain ⟨dims, units, a, own, r, k1, k2, k3, k4, k5, k6, k7⟩ := hall _ (Dict.mem_of_get? hq')
    have hgu := tracerProps_get? g p.prepend (p.dims.erase "tracer") hg1 hp n
    rw [show (tracerProps g p.prepend (p.dims.erase "tracer")).get? n = some q from hq'] at hgu
    obtain ⟨u, hu1, hu2⟩ := Option.map_eq_some_iff.1 hgu.symm
    simp only at k1 k2
    rw [← hu2] at k1 k2
    simp only [Option.some.injEq] at k1 k2
    subst k2
    rw [hq] at k1
    subst k1
    refine ⟨u, a, own, r, hu1, k3, k4, ?_, k6, k7⟩
    have : outName (n, q) = n := by rw [← hu2]; rfl
    rw [this] at k5; exact k5
  -- the array
  cases hnames : tracerNames g p with
  | nil => exact absurd hnames hne
  | cons first rest =>
    rw [hnames] at h
    simp only at h
    obtain ⟨a0, ha0, h1⟩ := Exc.bind_ok_iff.1 h
    obtain ⟨slices, hsl, h2⟩ := Exc.bind_ok_iff.1 h1
    obtain ⟨_, _, _, r0, _, _, _, e1, e2, _⟩ := hent first (by rw [hnames]; exact List.mem_cons_self)
    rw [Dict.get_eq_ok, e1] at ha0
    cases ha0
    rw [e2] at h2 hsl
    cases h2
    have hshape : (specShape (p.dims.erase "tracer") w (lenOr1 wl.2)).insertIdx p.index (first :: rest).length =
        tracerShape p.dims w (lenOr1 wl.2) (first :: rest).length := by
      unfold specShape tracerShape Packer.index
      rw [insertIdx_map_erase hdims]
    refine ⟨lenOr1 wl.2, lenSpec_of_inv inv, hshape, ?_⟩
    intro i name hi
    have hmem : name ∈ tracerNames g p := by rw [hnames]; exact List.mem_of_getElem? hi
    obtain ⟨units, a, own, r, g1, g2, g3, g4, g5, g6⟩ := hent name hmem
    refine ⟨units, a, own, g1, g2, g3, ?_⟩
    intro ix hix hwx
    -- the slice
    have hslice : ∃ s, slices[i]? = some s ∧
        ∀ idx, InB idx (specShape (p.dims.erase "tracer") w (lenOr1 wl.2)) → s.get idx = r.get idx := by
      have hlen : slices.length = (first :: rest).length := mapM_length hsl
      have hlt : i < (first :: rest).length := (List.getElem?_eq_some_iff.1 hi).1
      obtain ⟨s, hs1, hs2⟩ := mapM_getElem? hsl hi
      refine ⟨s, hs1, ?_⟩
      rw [Dict.get_eq_ok.2 g4, Exc.ok_bind] at hs2
      obtain ⟨b, hb1, hb2, hb3⟩ := broadcastTo_self_ok r
      rw [← g5, hb1] at hs2
      cases hs2
      rw [← g5]; exact hb3
    obtain ⟨s, hs1, hs2⟩ := hslice
    have hidx : (tracerIndex p.dims w (lenOr1 wl.2) ix i).getD p.index 0 = i := by
      unfold tracerIndex Packer.index
      rw [getD_map_idxOf htr]; simp
    have herase : (tracerIndex p.dims w (lenOr1 wl.2) ix i).eraseIdx p.index =
        specIndex (p.dims.erase "tracer") w (lenOr1 wl.2) ix := by
      unfold tracerIndex Packer.index specIndex
      apply eraseIdx_map hdims
      intro d _ hd; simp [hd]
    have hb : ∀ d ∈ p.dims, d ≠ "tracer" → d ≠ "*" → ix d < lenOr1 wl.2 d := by
      intro d hd h1 h2
      have hsh : (NDArray.stack ((specShape (p.dims.erase "tracer") w (lenOr1 wl.2)).insertIdx p.index
        (first :: rest).length) p.index slices).shape = _ := hshape
      rw [hsh] at hix
      unfold tracerIndex tracerShape at hix
      rw [inB_map] at hix
      have := hix d hd
      simpa [h1, h2] using this
    have hget : (NDArray.stack ((specShape (p.dims.erase "tracer") w (lenOr1 wl.2)).insertIdx p.index
        (first :: rest).length) p.index slices).get (tracerIndex p.dims w (lenOr1 wl.2) ix i) =
        r.get (specIndex (p.dims.erase "tracer") w (lenOr1 wl.2) ix) := by
      simp only [NDArray.stack]
      rw [hidx, hs1, herase]
      apply hs2
      unfold specIndex specShape
      rw [inB_map]
      intro d hd
      have hd' : d ∈ p.dims := List.mem_of_mem_erase hd
      have hdt : d ≠ "tracer" := fun e => not_mem_erase_of_count hdims (e ▸ hd)
      by_cases hds : d = "*"
      · subst hds
        simp only [if_true]
        apply ravel_lt
        rw [inB_map]
        exact hwx hd'
      · simp only [hds, if_false]
        exact hb d hd' hdt hds
    rw [hget]
    apply g6
    · intro d hd hds
      exact hb d (List.mem_of_mem_erase hd) (fun e => not_mem_erase_of_count hdims (e ▸ hd)) hds
    · intro hs
      exact hwx (List.mem_of_mem_erase hs)

/-- **C21, unpacking.**  Unpacking any array of the shape of the packed array
gives exactly the tracers, each with its units (times `multiply_unit`), with the
state's dims, and at every named coordinate the value at that tracer's position
in the array. -/
theorem unpacked_values (R : Registry) (ops : List TOp) (p : Packer)
    (state : State) (arr : NDArray) (multiply : String) (L : String → Nat)
    (hwf : state.WF)
    (hdims : p.dims.count "tracer" = 1) (hstar : p.dims.count "*" ≤ 1)
    (hp : (p.prepend.map (·.1)).Nodup)
    (hin : ∃ raw0, getNumpyArrays R state (tracerReq (runOps R {} ops) p) = .ok raw0)
    (hL : ∀ q ∈ requested state (tracerReq (runOps R {} ops) p), ∀ d ∈ q.1.dims, L d = q.1.len d)
    (hshape : arr.shape = tracerShape p.dims
      (wildSpec (requested state (tracerReq (runOps R {} ops) p))) L
        (tracerNames (runOps R {} ops) p).length) :
    ∃ out, p.unpack (runOps R {} ops) arr state multiply = .ok out ∧
      (∀ n, n ∈ out.keys ↔ n ∈ tracerNames (runOps R {} ops) p) ∧
      ∀ i name, (tracerNames (runOps R {} ops) p)[i]? = some name →
        ∃ units da, tracerUnits (runOps R {} ops) p name = some units ∧
          out.get? name = some da ∧ da.attrs = [("units", if multiply = "" then units else units ++ " " ++ multiply)] ∧
          da.dims = outDimsSpec (p.dims.erase "tracer")
            (wildSpec (requested state (tracerReq (runOps R {} ops) p))) ∧
          da.arr.shape = da.dims.map L ∧
          ∀ ix : String → Nat, InB (da.dims.map ix) da.arr.shape →
            da.at' ix = arr.get (tracerIndex p.dims
              (wildSpec (requested state (tracerReq (runOps R {} ops) p))) L ix i) := by
  obtain ⟨hg1, hg2⟩ := tracer_globals_consistent R ops {} (by simp) (by simp)
  generalize runOps R {} ops = g at *
  have htr : "tracer" ∈ p.dims := List.count_pos_iff.1 (by omega)
  have hq : (p.dims.erase "tracer").erase "tracer" = p.dims.erase "tracer" :=
    List.erase_of_not_mem (not_mem_erase_of_count hdims)
  have hcount : (p.dims.erase "tracer").count "*" ≤ 1 := by
    rw [List.count_erase_of_ne (by decide)]; exact hstar
  have hnm := mem_tracerNames hg2 p
  have hnd := nodup_tracerNames g p hp
  set w := wildSpec (requested state (tracerReq g p)) with hwdef
  have hax : arr.shape[p.index]? = some (tracerNames g p).length := by
    rw [hshape]; unfold tracerShape Packer.index
    rw [getElem?_map_idxOf htr]; simp
  obtain ⟨raw, hraw, hraw2, hraw3⟩ := readSlices_ok hax (l := tracerNames g p) (i := 0) (raw0 := [])
    (by simp) hnd
  set outProps := (tracerReq g p).mapVal fun q => { q with units := q.units.map (mulUnit · multiply) }
    with hop
  have hopn : outProps.keys.Nodup := by
    rw [hop, Dict.keys_mapVal]; exact tracerProps_nodup _ _ _
  have hent : ∀ kv ∈ outProps, ∃ (u : String) (i : Nat), tracerUnits g p kv.1 = some u ∧
      (tracerNames g p)[i]? = some kv.1 ∧
      kv.2 = { dims := some (p.dims.erase "tracer"), units := some (mulUnit u multiply) } ∧
      (kv.1, ({ dims := some (p.dims.erase "tracer"), units := some u } : QProps)) ∈ tracerReq g p := by
    intro kv hkv
    have hk : kv.1 ∈ (tracerReq g p).keys := by
      have := Dict.mem_keys_of_mem hkv
      rwa [hop, Dict.keys_mapVal] at this
    obtain ⟨i, hi⟩ := List.getElem?_of_mem ((hnm kv.1).2 hk)
    obtain ⟨q, hq'⟩ := Dict.get?_of_mem_keys hk
    have hgu := tracerProps_get? g p.prepend (p.dims.erase "tracer") hg1 hp kv.1
    rw [show (tracerProps g p.prepend (p.dims.erase "tracer")).get? kv.1 = some q from hq', hq] at hgu
    obtain ⟨u, hu1, hu2⟩ := Option.map_eq_some_iff.1 hgu.symm
    refine ⟨u, i, hu1, hi, ?_, by rw [hu2]; exact Dict.mem_of_get? hq'⟩
    have h1 := Dict.get?_of_mem hopn hkv
    rw [hop, Dict.get?_mapVal, hq'] at h1
    simp only [Option.map_some, Option.some.injEq] at h1
    rw [← h1, ← hu2]; rfl
  have hname : ∀ kv ∈ outProps, getAliasOrName kv.1 outProps (tracerReq g p) = kv.1 := by
    intro kv hkv
    obtain ⟨u, i, _, _, h3, h4⟩ := hent kv hkv
    unfold getAliasOrName
    rw [Dict.get?_of_mem hopn hkv,
      Dict.get?_of_mem (show (tracerReq g p).keys.Nodup from tracerProps_nodup _ _ _) h4]
    simp [h3]
  have hsl : ∀ i, (arr.slice p.index i).shape = specShape (p.dims.erase "tracer") w L := by
    intro i
    show arr.shape.eraseIdx p.index = _
    rw [hshape]; unfold tracerShape specShape Packer.index
    apply eraseIdx_map hdims
    intro d _ hd; simp [hd]
  obtain ⟨raw0, hin⟩ := hin
  obtain ⟨out, hout, hvals⟩ := restored_values state (tracerReq g p) outProps raw [] L hwf hopn
    ⟨R, raw0, hin⟩ hL (by
      intro kv hkv _
      obtain ⟨u, i, h1, h2, h3, h4⟩ := hent kv hkv
      refine ⟨p.dims.erase "tracer", mulUnit u multiply, arr.slice p.index i, ?_, by rw [h3], hcount,
        ?_, ?_, hsl i⟩
      · rw [h3]; rfl
      · intro hs; exact ⟨_, h4, _, rfl, hs⟩
      · rw [hname kv hkv]
        have := hraw2 i kv.1 h2
        simpa using this)
  refine ⟨out, ?_, ?_, ?_⟩
  · unfold Packer.unpack
    rw [quantityDims_ok htr]
    simp only [Exc.ok_bind]
    rw [hraw]
    exact hout
  · intro n
    rw [hnm n]
    have hone : ∀ kv ∈ outProps, ∀ d, effDims (tracerReq g p) kv.1 kv.2 = some d → d.count "*" ≤ 1 := by
      intro kv hkv d hd
      obtain ⟨u, i, _, _, h3, _⟩ := hent kv hkv
      rw [h3] at hd
      simp only [effDims, Option.some_or, Option.some.injEq] at hd
      rw [← hd]; exact hcount
    have := (restored_outputs_carry_state_dims raw outProps state (tracerReq g p) [] false out hwf hopn
      hone hout).1 n
    rw [this, hop, Dict.keys_mapVal]
    simp
  · intro i name hi
    have hmem : name ∈ tracerNames g p := List.mem_of_getElem? hi
    have hk : name ∈ outProps.keys := by
      rw [hop, Dict.keys_mapVal]; exact (hnm name).1 hmem
    obtain ⟨q, hq'⟩ := Dict.get?_of_mem_keys hk
    have hkv := Dict.mem_of_get? hq'
    obtain ⟨u, i', h1, h2, h3, h4⟩ := hent _ hkv
    obtain ⟨dims, units, a, da, v1, v2, v3, v4, v5, v6, v7, v8⟩ := hvals _ hkv (by simp)
    simp only at v1 v2 v4 h1 h2 h3
    rw [h3] at v1 v2
    simp only [effDims, Option.some_or, Option.some.injEq] at v1 v2
    subst v1 v2
    rw [hname _ hkv, hraw2 i name hi] at v3
    injection v3 with v3
    refine ⟨u, da, h1, v4, v5, v6, v7, ?_⟩
    intro ix hix
    rw [v8 ix hix, ← v3, Nat.zero_add]
    show arr.get ((specIndex (p.dims.erase "tracer") w L ix).insertIdx p.index i) = _
    unfold specIndex tracerIndex Packer.index
    rw [insertIdx_map_erase hdims]

/-- **C21.**  Unpacking the packed array returns every tracer with the same
physical values as in the state, in the tracer's units, and nothing else. -/
theorem pack_unpack_roundtrip (R : Registry) (hR : R.Faithful) (ops : List TOp) (p : Packer)
    (state : State) (arr : NDArray) (hwf : state.WF) (hsf : state.StarFree)
    (hdims : p.dims.count "tracer" = 1) (hstar : p.dims.count "*" ≤ 1)
    (hp : (p.prepend.map (·.1)).Nodup) (hne : tracerNames (runOps R {} ops) p ≠ [])
    (h : p.pack R (runOps R {} ops) state = .ok arr) :
    ∃ out, p.unpack (runOps R {} ops) arr state "" = .ok out ∧
      (∀ n, n ∈ out.keys ↔ n ∈ tracerNames (runOps R {} ops) p) ∧
      ∀ name ∈ tracerNames (runOps R {} ops) p,
        ∃ units a own da, tracerUnits (runOps R {} ops) p name = some units ∧
          Dict.get? state name = some (.da a) ∧ a.attrs.get? "units" = some own ∧
          out.get? name = some da ∧ da.attrs = [("units", units)] ∧
          ∀ ix : String → Nat, InB (da.dims.map ix) da.arr.shape →
            SamePhysical R units (da.at' ix) own (a.at' ix) := by
  obtain ⟨L, hL, hsh, hsl⟩ := packed_slices R hR ops p state arr hwf hsf hdims hstar hp hne h
  have htr : "tracer" ∈ p.dims := List.count_pos_iff.1 (by omega)
  have hin : ∃ raw0, getNumpyArrays R state (tracerReq (runOps R {} ops) p) = .ok raw0 := by
    unfold Packer.pack at h
    rw [quantityDims_ok htr] at h
    simp only [Exc.ok_bind] at h
    obtain ⟨raw, hraw, _⟩ := Exc.bind_ok_iff.1 h
    exact ⟨raw, hraw⟩
  obtain ⟨out, ho1, ho2, ho3⟩ := unpacked_values R ops p state arr "" L hwf hdims hstar hp hin hL.1 hsh
  refine ⟨out, ho1, ho2, ?_⟩
  intro name hname
  obtain ⟨i, hi⟩ := List.getElem?_of_mem hname
  obtain ⟨units, a, own, g1, g2, g3, g4⟩ := hsl i name hi
  obtain ⟨units', da, k1, k2, k3, k4, k5, k6⟩ := ho3 i name hi
  rw [g1] at k1; cases k1
  refine ⟨units, a, own, da, g1, g2, g3, k2, by simpa [mulUnit] using k3, ?_⟩
  intro ix hix
  rw [k6 ix hix]
  rw [k5, inB_map, k4] at hix
  have hb : ∀ d ∈ p.dims, d ≠ "tracer" → d ≠ "*" → ix d < L d := by
    intro d hd h1 h2
    apply hix
    unfold outDimsSpec
    rw [List.mem_flatMap]
    exact ⟨d, (List.mem_erase_of_ne h1).2 hd, by simp [h2]⟩
  have hw : "*" ∈ p.dims → ∀ d ∈ wildSpec (requested state (tracerReq (runOps R {} ops) p)), ix d < L d := by
    intro hs d hd
    apply hix
    unfold outDimsSpec
    rw [List.mem_flatMap]
    exact ⟨"*", (List.mem_erase_of_ne (by decide)).2 hs, by simpa using hd⟩
  apply g4 ix _ hw
  rw [hsh]
  unfold tracerIndex tracerShape
  rw [inB_map]
  intro d hd
  by_cases h1 : d = "tracer"
  · simp only [h1, if_true]; exact (List.getElem?_eq_some_iff.1 hi).1
  · by_cases h2 : d = "*"
    · subst h2
      rw [if_neg h1, if_neg h1, if_pos rfl, if_pos rfl]
      apply ravel_lt
      rw [inB_map]
      exact hw hd
    · rw [if_neg h1, if_neg h1, if_neg h2, if_neg h2]; exact hb d hd h1 h2

/-- A history and a packer for the examples: `T` is registered, `h` prepended in
metres (the state has km), the tracer axis is in the middle. -/
def Demo.ops : List TOp := [.register "T" "degC"]
def Demo.packer : Packer :=
  { prepend := [("h", "m")], dims := ["z", "tracer", "*"], outNames := [] }

/-- Non-vacuity of C21 and C22. -/
example : Demo.packer.dims.count "tracer" = 1 ∧
    tracerNames (runOps Demo.reg {} Demo.ops) Demo.packer = ["h", "T"] ∧
    ∃ arr, Demo.packer.pack Demo.reg (runOps Demo.reg {} Demo.ops) Demo.state = .ok arr ∧
      arr.shape = [3, 2, 4] ∧ arr.get [2, 0, 1] = 3000 ∧ arr.get [2, 1, 3] = 121 - 27315 / 100 := by
  refine ⟨by decide, by decide +kernel, ?_⟩
  have h : Exc.test (Demo.packer.pack Demo.reg (runOps Demo.reg {} Demo.ops) Demo.state) (fun arr =>
    decide (arr.shape = [3, 2, 4]) && decide (arr.get [2, 0, 1] = 3000) &&
    decide (arr.get [2, 1, 3] = 121 - 27315 / 100)) = true := by decide +kernel
  obtain ⟨arr, h1, h2⟩ := Exc.test_ok h
  simp only [Bool.and_eq_true, decide_eq_true_eq] at h2
  exact ⟨arr, h1, h2.1.1, h2.1.2, h2.2⟩

theorem forM'_ok {α : Type} {f : α → Except Err Unit} {l : List α} {u : Unit}
    (h : forM' f l = .ok u) : ∀ x ∈ l, f x = .ok () := by
  induction l with
  | nil => simp
  | cons a l ih =>
    unfold forM' at h
    obtain ⟨v, h1, h2⟩ := Exc.bind_ok_iff.1 h
    intro x hx
    rcases List.mem_cons.1 hx with rfl | hx
    · exact h1
    · exact ih h2 x hx

theorem ensureNotOutput_ok {p : Packer} {n : String} :
    p.ensureNotOutput n = .ok () ↔ n ∉ p.outNames := by
  unfold Packer.ensureNotOutput; split <;> simp_all

/-- **C23.**  After any history of registrations, packer creations and resets in
which no call raised, no registered tracer and no tracer prepended to a component
is among that component's outputs or tendencies. -/
theorem tracer_never_output (R : Registry) (ops : List TOp) (hok : allOk R {} ops) :
    ∀ p ∈ (runOps R {} ops).packers, ∀ n,
      (n ∈ (runOps R {} ops).names ∨ n ∈ p.prepend.map (·.1)) → n ∉ p.outNames := by
  suffices H : ∀ (ops : List TOp) (g : Tracers), allOk R g ops →
      (∀ n, n ∈ g.names ↔ n ∈ g.units.keys) →
      (∀ p ∈ g.packers, ∀ n, (n ∈ g.names ∨ n ∈ p.prepend.map (·.1)) → n ∉ p.outNames) →
      ∀ p ∈ (runOps R g ops).packers, ∀ n,
        (n ∈ (runOps R g ops).names ∨ n ∈ p.prepend.map (·.1)) → n ∉ p.outNames from
    H ops {} hok (by simp) (by simp)
  intro ops
  induction ops with
  | nil => intro g _ _ h; exact h
  | cons op ops ih =>
    intro g hok hg hinv
    obtain ⟨ho, hok⟩ := hok
    unfold runOps
    apply ih _ hok
    · cases op with
      | register n u =>
        simp only [TOp.run, registerTracer]
        split
        · exact hg
        · intro m
          simp only [List.mem_append, List.mem_singleton, Dict.mem_keys_set, hg]
          exact or_comm
      | create o d q =>
        simp only [TOp.run, createPacker]
        split <;> exact hg
      | resetTracers => simp [TOp.run, resetTracers]
      | resetPackers => exact hg
    · cases op with
      | register n u =>
        simp only [TOp.run, registerTracer] at ho ⊢
        split
        · exact hinv
        · rename_i he
          rw [he] at ho
          simp only at ho
          cases hf : forM' (fun p => p.ensureNotOutput n) g.packers with
          | error e => rw [hf] at ho; simp [Except.toBool] at ho
          | ok u =>
            intro p hp m hm
            simp only at hp hm
            rw [List.mem_append, List.mem_singleton] at hm
            rcases hm with (hm | rfl) | hm
            · exact hinv p hp m (Or.inl hm)
            · exact ensureNotOutput_ok.1 (forM'_ok hf p hp)
            · exact hinv p hp m (Or.inr hm)
      | create o d q =>
        simp only [TOp.run, createPacker] at ho ⊢
        split
        · exact hinv
        · rename_i he
          obtain ⟨_, _, he⟩ := Exc.bind_ok_iff.1 he
          obtain ⟨_, h1, h2⟩ := Exc.bind_ok_iff.1 he
          intro p hp m hm
          simp only at hp hm
          rw [List.mem_append, List.mem_singleton] at hp
          rcases hp with hp | rfl
          · exact hinv p hp m hm
          · have hreg : m ∈ g.units.keys → m ∉ o := by
              intro hmk
              obtain ⟨v, hv⟩ := Dict.get?_of_mem_keys hmk
              exact ensureNotOutput_ok.1 (forM'_ok h2 _ (Dict.mem_of_get? hv))
            rcases hm with hm | hm
            · exact hreg ((hg m).1 hm)
            · by_cases hmk : m ∈ g.units.keys
              · exact hreg hmk
              · obtain ⟨nu, hnu, rfl⟩ := List.mem_map.1 hm
                have := forM'_ok h1 nu hnu
                rw [if_pos hmk] at this
                exact ensureNotOutput_ok.1 this
      | resetTracers =>
        simp only [TOp.run, resetTracers]
        intro p hp m hm
        rcases hm with hm | hm
        · simp at hm
        · exact hinv p hp m (Or.inr hm)
      | resetPackers => simp [TOp.run, resetPackers]

/-- Non-vacuity of C23: two components and two tracers. -/
example : allOk Demo.reg {} [.create ["T"] ["tracer", "*"] [("qi", "g kg^-1")],
    .register "qv" "kg kg^-1", .create ["u"] ["*", "tracer"] []] := by
  refine ⟨?_, ?_, ?_, trivial⟩ <;> decide +kernel

/-- **C23, the violating call raises** (with InvalidPropertyDictError, unless the
call is rejected earlier for another reason). -/
theorem violating_register_raises (R : Registry) (g : Tracers) (n u : String) (p : Packer)
    (hp : p ∈ g.packers) (hn : n ∈ p.outNames) :
    ∃ e, (registerTracer R g n u).2 = .error e := by
  cases h : (registerTracer R g n u).2 with
  | error e => exact ⟨e, rfl⟩
  | ok v =>
    exfalso
    unfold registerTracer at h
    simp only at h
    split at h
    · cases h
    · exact ensureNotOutput_ok.1 (forM'_ok h p hp) hn

theorem violating_create_raises (g : Tracers) (hg : ∀ n, n ∈ g.names ↔ n ∈ g.units.keys)
    (o d : List String) (q : List (String × String))
    (n : String) (hn : n ∈ o) (hbad : n ∈ g.names ∨ n ∈ q.map (·.1)) :
    ∃ e, createPacker g o d q = (g, .error e) := by
  unfold createPacker
  simp only
  split
  · rename_i e _; exact ⟨e, rfl⟩
  · rename_i he
    exfalso
    obtain ⟨_, _, he⟩ := Exc.bind_ok_iff.1 he
    obtain ⟨_, h1, h2⟩ := Exc.bind_ok_iff.1 he
    have hreg : n ∈ g.units.keys → n ∉ o := by
      intro hmk
      obtain ⟨v, hv⟩ := Dict.get?_of_mem_keys hmk
      exact ensureNotOutput_ok.1 (forM'_ok h2 _ (Dict.mem_of_get? hv))
    by_cases hk : n ∈ g.units.keys
    · exact hreg hk hn
    · rcases hbad with hbad | hbad
      · exact hk ((hg n).1 hbad)
      · obtain ⟨nu, hnu, rfl⟩ := List.mem_map.1 hbad
        have := forM'_ok h1 nu hnu
        rw [if_pos hk] at this
        exact ensureNotOutput_ok.1 this hn

/-- Non-vacuity: both kinds of violation are reachable. -/
example : (registerTracer Demo.reg (runOps Demo.reg {} [.create ["T"] ["tracer", "*"] []]) "T" "K").2
      = .error .invalidPropertyDict ∧
    (createPacker (runOps Demo.reg {} [.register "T" "K"]) ["T"] ["tracer", "*"] []).2.toBool = false :=
  ⟨Exc.failsWith_error (by decide +kernel), by decide +kernel⟩

theorem latestUnits_append (n : String) (l : List (String × String)) (m u : String) :
    latestUnits n (l ++ [(m, u)]) = if m = n then some u else latestUnits n l := by
  induction l with
  | nil => simp only [List.nil_append, latestUnits, Option.none_or]
  | cons x l ih =>
    obtain ⟨m', u'⟩ := x
    simp only [List.cons_append, latestUnits, ih]
    split <;> simp

theorem globals_of_history (R : Registry) (ops : List TOp) (g : Tracers) (regs : List (String × String))
    (outs : List (List String)) (hok : allOk R g ops) (hu : ∀ n, g.units.get? n = latestUnits n regs)
    (hp : g.packers.map (·.outNames) = outs) :
    (∀ n, (runOps R g ops).units.get? n = latestUnits n (registrations ops regs)) ∧
      (runOps R g ops).packers.map (·.outNames) = creations ops outs := by
  induction ops generalizing g regs outs with
  | nil => exact ⟨hu, hp⟩
  | cons op ops ih =>
    obtain ⟨h1, h2⟩ := hok
    cases op with
    | register n u =>
      refine ih _ _ _ h2 ?_ ?_
      · intro m
        rw [latestUnits_append]
        simp only [TOp.run, registerTracer] at h1 ⊢
        split at h1
        · cases h1
        · simp only
          rw [Dict.get?_set, hu m]
      · simp only [TOp.run, registerTracer]
        split
        · exact hp
        · exact hp
    | create o d p =>
      refine ih _ _ _ h2 ?_ ?_
      · intro m
        simp only [TOp.run, createPacker]
        split
        · exact hu m
        · exact hu m
      · simp only [TOp.run, createPacker] at h1 ⊢
        split at h1
        · cases h1
        · simp only [List.map_append, List.map_cons, List.map_nil, hp]
    | resetTracers => exact ih _ _ _ h2 (fun m => rfl) hp
    | resetPackers => exact ih _ _ _ h2 hu rfl

/-- **C23, nothing else is rejected.**  After a history in which no call raised, `register_tracer`
accepts a tracer exactly if it has not been registered since the last `reset_tracers` with other
units, and is not an output of a component created since the last `reset_packers`. -/
theorem register_accepted_iff (R : Registry) (ops : List TOp) (hok : allOk R {} ops) (n u : String) :
    (registerTracer R (runOps R {} ops) n u).2 = .ok () ↔
      (∀ old, latestUnits n (registrations ops []) = some old → R.unitsAreSame old u = .ok true) ∧
      ∀ o ∈ creations ops [], n ∉ o := by
  obtain ⟨hu, hp⟩ := globals_of_history R ops {} [] [] hok (fun _ => rfl) rfl
  rw [← hu n, ← hp]
  generalize runOps R {} ops = g
  have hf : forM' (fun p : Packer => p.ensureNotOutput n) g.packers = .ok () ↔
      ∀ o ∈ g.packers.map (·.outNames), n ∉ o := by
    generalize g.packers = l
    induction l with
    | nil => simp [forM']
    | cons p l ih =>
      simp only [List.map_cons, List.mem_cons, forall_eq_or_imp, ← ih]
      show (p.ensureNotOutput n >>= fun _ => forM' _ l) = _ ↔ _
      unfold Packer.ensureNotOutput
      by_cases h : n ∈ p.outNames
      · simp only [h, if_true, not_true_eq_false, false_and, iff_false]
        exact nofun
      · simp only [h, if_false, not_false_eq_true, true_and, Exc.ok_bind]
  unfold registerTracer
  cases ho : g.units.get? n with
  | none => simp [hf]
  | some old =>
    cases hs : R.unitsAreSame old u with
    | error e => simp [hs]
    | ok b => cases b <;> simp [hs, hf]

/-- Non-vacuity: `T` is rejected while there is a component with that output, and accepted after
`reset_packers`. -/
example : allOk Demo.reg {} [.register "qv" "kg kg^-1", .create ["T"] ["tracer", "*"] []] ∧
    (registerTracer Demo.reg (runOps Demo.reg {} [.register "qv" "kg kg^-1", .create ["T"] ["tracer", "*"] []]) "T" "K").2
      = .error .invalidPropertyDict ∧
    allOk Demo.reg {} [.register "qv" "kg kg^-1", .create ["T"] ["tracer", "*"] [], .resetPackers] ∧
    (registerTracer Demo.reg (runOps Demo.reg {} [.register "qv" "kg kg^-1", .create ["T"] ["tracer", "*"] [],
      .resetPackers]) "T" "K").2.toBool = true := by
  refine ⟨⟨?_, ?_, trivial⟩, Exc.failsWith_error (by decide +kernel), ⟨?_, ?_, rfl, trivial⟩, ?_⟩ <;> decide +kernel

/-- **C24 is false.**  A registration rejected because the tracer is an output of
an existing component leaves the tracer registered. -/
theorem rejected_registration_is_recorded :
    ∃ (R : Registry) (g : Tracers) (n u : String) (e : Err),
      (registerTracer R g n u).2 = .error e ∧ n ∉ g.names ∧ n ∉ g.units.keys ∧
      n ∈ (registerTracer R g n u).1.names ∧ (registerTracer R g n u).1.units.get? n = some u := by
  refine ⟨Demo.reg, runOps Demo.reg {} [.create ["T"] ["tracer", "*"] []], "T", "K",
    .invalidPropertyDict, Exc.failsWith_error (by decide +kernel), ?_, ?_, ?_, ?_⟩ <;> decide +kernel

/-- **C24 (partial).**  Full statement: if register_tracer raises, the tables are
unchanged.  Proved: a registration rejected because of its units (ValueError, or
pint's error for an unknown unit) changes nothing, and in every case other
tracers and their units are as before.  Missing: the rejection by an existing
component, for which the statement is false (`rejected_registration_is_recorded`). -/
theorem rejected_registration_unchanged_partial (R : Registry) (g : Tracers) (n u : String) :
    (∀ e, (registerTracer R g n u).2 = .error e → e ≠ .invalidPropertyDict →
      (registerTracer R g n u).1 = g) ∧
    (∀ m, m ≠ n → ((registerTracer R g n u).1.units.get? m = g.units.get? m ∧
      (m ∈ (registerTracer R g n u).1.names ↔ m ∈ g.names))) := by
  refine ⟨?_, ?_⟩
  · intro e he hne
    unfold registerTracer at he ⊢
    simp only at he ⊢
    split
    · rfl
    · rename_i hc
      rw [hc] at he
      simp only at he
      exfalso
      have : ∀ (l : List Packer), forM' (fun p => p.ensureNotOutput n) l = .error e → e = .invalidPropertyDict := by
        intro l
        induction l with
        | nil => intro h; cases h
        | cons p l ih =>
          intro h
          unfold forM' at h
          unfold Packer.ensureNotOutput at h
          split at h
          · cases h; rfl
          · exact ih h
      exact hne (this _ he)
  · intro m hm
    unfold registerTracer
    simp only
    split
    · exact ⟨rfl, Iff.rfl⟩
    · refine ⟨Dict.get?_set_ne _ _ (Ne.symm hm), ?_⟩
      simp [hm]

/-- Non-vacuity: a registration rejected for its units. -/
example : (registerTracer Demo.reg (runOps Demo.reg {} [.register "qv" "kg kg^-1"]) "qv" "g kg^-1").2
    = .error .valueError := Exc.failsWith_error (by decide +kernel)

/-- **C25 (partial: distinct tracers).**  Full statement: the allocated array always
has the shape of the packed one; false for repeated registrations
(`allocated_tracers_mismatch_on_reregistration`).  Proved: when no tracer is registered twice and no registered tracer is also
prepended, and the component's inputs have the tracers' lengths along the tracer
dims, the allocated `tracers` array has the shape of the packed one. -/
theorem allocated_tracers_match_partial (R : Registry) (hR : R.Faithful) (ops : List TOp) (p : Packer)
    (state : State) (arr : NDArray) (inProps outProps : PropDict) (raw alloc : Dict NDArray)
    (hwf : state.WF) (hsf : state.StarFree)
    (hdims : p.dims.count "tracer" = 1) (hstar : p.dims.count "*" ≤ 1)
    (hp : (p.prepend.map (·.1)).Nodup) (hne : tracerNames (runOps R {} ops) p ≠ [])
    (h : p.pack R (runOps R {} ops) state = .ok arr)
    (hreg : (runOps R {} ops).names.Nodup)
    (hdisj : ∀ n ∈ (runOps R {} ops).names, n ∉ p.prepend.map (·.1))
    (hlens : ∀ kv ∈ inProps, kv.2.tracer = false → ∀ dims a, kv.2.dims = some dims →
      raw.get? (outName kv) = some a → ∀ d n m, (d, n) ∈ dims.zip a.shape →
        (d, m) ∈ p.dims.zip arr.shape → n = m)
    (halloc : initArrays outProps raw inProps (some p.dims) (runOps R {} ops).names
      (p.prepend.map (·.1)) = .ok alloc) :
    ∃ t, alloc.get? "tracers" = some t ∧ t.shape = arr.shape := by
  obtain ⟨L, _, hsh, _⟩ := packed_slices R hR ops p state arr hwf hsf hdims hstar hp hne h
  generalize hg : runOps R {} ops = g at *
  unfold initArrays at halloc
  obtain ⟨lens, h1, halloc⟩ := Exc.bind_ok_iff.1 halloc
  obtain ⟨dimsOf, h2, halloc⟩ := Exc.bind_ok_iff.1 halloc
  obtain ⟨out, h3, halloc⟩ := Exc.bind_ok_iff.1 halloc
  simp only at halloc
  obtain ⟨shape, h4, halloc⟩ := Exc.bind_ok_iff.1 halloc
  cases halloc
  refine ⟨_, Dict.get?_set_self _ _ _, ?_⟩
  show shape = arr.shape
  have hlen : (tracerNames g p).length = (g.names ++ p.prepend.map (·.1)).length := by
    unfold tracerNames
    rw [addNew_spec]
    have : g.names.filter (fun n => n ∉ p.prepend.map (·.1)) = g.names := by
      rw [List.filter_eq_self]
      intro n hn; simpa using hdisj n hn
    rw [this, eraseDups_of_nodup hreg]
    simp [Nat.add_comm]
  have key : shape = p.dims.map (fun d => if d = "tracer" then (tracerNames g p).length
      else if d = "*" then size ((wildSpec (requested state (tracerReq g p))).map L) else L d) := by
    apply mapM_ok_map _ h4
    intro d hd v hv
    rw [Dict.get_eq_ok] at hv
    by_cases ht : d = "tracer"
    · subst ht
      rw [Dict.get?_set_self] at hv
      simp only [if_true, hlen]
      injection hv
    · rw [Dict.get?_set_ne _ _ (Ne.symm ht)] at hv
      rcases rawDimLens_origin h1 d v hv with h0 | ⟨kv, k1, k2, dims, a, k3, k4, k5⟩
      · cases h0
      · symm
        apply hlens kv k1 k2 dims a k3 k4 d v _ k5
        rw [hsh]; unfold tracerShape
        exact zip_mem_map (f := fun d => if d = "tracer" then (tracerNames g p).length
          else if d = "*" then size ((wildSpec (requested state (tracerReq g p))).map L) else L d) hd
  rw [key, hsh]; rfl

/-- Non-vacuity of C25: packed and allocated tracer arrays for the demo state. -/
example : ∃ raw arr alloc t,
    getNumpyArrays Demo.reg Demo.state Demo.props = .ok raw ∧
    Demo.packer.pack Demo.reg (runOps Demo.reg {} Demo.ops) Demo.state = .ok arr ∧
    initArrays [] raw Demo.props (some Demo.packer.dims) (runOps Demo.reg {} Demo.ops).names
      (Demo.packer.prepend.map (·.1)) = .ok alloc ∧ alloc.get? "tracers" = some t ∧
    t.shape = [3, 2, 4] ∧ arr.shape = [3, 2, 4] := by
  have h : Exc.test (getNumpyArrays Demo.reg Demo.state Demo.props) (fun raw =>
    Exc.test (Demo.packer.pack Demo.reg (runOps Demo.reg {} Demo.ops) Demo.state) fun arr =>
    Exc.test (initArrays [] raw Demo.props (some Demo.packer.dims) (runOps Demo.reg {} Demo.ops).names
      (Demo.packer.prepend.map (·.1))) fun alloc =>
    Exc.test (alloc.get "tracers") fun t => decide (t.shape = [3, 2, 4]) &&
      decide (arr.shape = [3, 2, 4])) = true := by decide +kernel
  obtain ⟨raw, h1, h⟩ := Exc.test_ok h
  obtain ⟨arr, h2, h⟩ := Exc.test_ok h
  obtain ⟨alloc, h3, h⟩ := Exc.test_ok h
  obtain ⟨t, h4, h⟩ := Exc.test_ok h
  simp only [Bool.and_eq_true, decide_eq_true_eq] at h
  exact ⟨raw, arr, alloc, t, h1, h2, h3, Dict.get_eq_ok.1 h4, h.1, h.2⟩

/-- C25 is false when a tracer is registered twice (with the same units, which is
allowed): the allocated array has a position too many. -/
theorem allocated_tracers_mismatch_on_reregistration :
    ∃ (R : Registry) (ops : List TOp) (p : Packer) (state : State) (arr : NDArray)
      (inProps : PropDict) (raw alloc : Dict NDArray) (t : NDArray),
      allOk R {} ops ∧ p.pack R (runOps R {} ops) state = .ok arr ∧
      getNumpyArrays R state inProps = .ok raw ∧
      initArrays [] raw inProps (some p.dims) (runOps R {} ops).names (p.prepend.map (·.1)) = .ok alloc ∧
      alloc.get? "tracers" = some t ∧ arr.shape = [3, 2, 4] ∧ t.shape = [3, 3, 4] := by
  have h : Exc.test (getNumpyArrays Demo.reg Demo.state Demo.props) (fun raw =>
    Exc.test (Demo.packer.pack Demo.reg (runOps Demo.reg {} (Demo.ops ++ Demo.ops)) Demo.state) fun arr =>
    Exc.test (initArrays [] raw Demo.props (some Demo.packer.dims)
      (runOps Demo.reg {} (Demo.ops ++ Demo.ops)).names (Demo.packer.prepend.map (·.1))) fun alloc =>
    Exc.test (alloc.get "tracers") fun t => decide (t.shape = [3, 3, 4]) &&
      decide (arr.shape = [3, 2, 4])) = true := by decide +kernel
  obtain ⟨raw, h1, h⟩ := Exc.test_ok h
  obtain ⟨arr, h2, h⟩ := Exc.test_ok h
  obtain ⟨alloc, h3, h⟩ := Exc.test_ok h
  obtain ⟨t, h4, h⟩ := Exc.test_ok h
  simp only [Bool.and_eq_true, decide_eq_true_eq] at h
  refine ⟨Demo.reg, Demo.ops ++ Demo.ops, Demo.packer, Demo.state, arr, Demo.props, raw, alloc, t,
    ⟨?_, ?_, trivial⟩, h2, h1, h3, Dict.get_eq_ok.1 h4, h.2, h.1⟩ <;> decide +kernel

end Verif
