import Verif.Lemmas.NetCDF
import Verif.Props.Constants
/-!
# When a write succeeds
-/

namespace Verif

/-- The dimensions of the file have the lengths `L`, and `time` is the only unlimited
one. -/
structure DimsAgree (L : String → Nat) (f : NCFile) : Prop where
  len : ∀ d n, f.dims.get? d = some (some n) → L d = n
  only : OnlyTime f
  time : f.dims.get? "time" = some none

theorem ensureDim_succeeds {L : String → Nat} {f : NCFile} (h : DimsAgree L f) {d : String} (hd : d ≠ "time") :
    (ensureDim f d (some (L d))).2 = .ok () ∧ DimsAgree L (ensureDim f d (some (L d))).1 := by
  have ho := ensureDim_onlyTime h.only (d := d) (n := some (L d)) (fun e => by cases e)
  unfold ensureDim at ho ⊢
  cases hg : f.dims.get? d with
  | none =>
    rw [hg] at ho
    refine ⟨rfl, ⟨?_, ho, ?_⟩⟩
    · intro d' n hn
      dsimp only at hn
      rw [Dict.get?_set] at hn
      split at hn
      · rename_i e
        subst e
        injection hn with hn
        injection hn
      · exact h.len d' n hn
    · dsimp only
      rw [Dict.get?_set_ne _ _ hd]
      exact h.time
  | some m =>
    dsimp only
    cases m with
    | none => exact absurd (h.only d hg) hd
    | some m =>
      dsimp only
      exact ⟨if_pos (h.len d m hg), h⟩

theorem ensureDims_succeeds {L : String → Nat} {l : List (String × Nat)} {f : NCFile} (h : DimsAgree L f)
    (hl : ∀ d n, (d, n) ∈ l → d ≠ "time" ∧ n = L d) :
    (ensureDims f l).2 = .ok () ∧ DimsAgree L (ensureDims f l).1 := by
  induction l generalizing f with
  | nil => exact ⟨rfl, h⟩
  | cons x l ih =>
    obtain ⟨d, n⟩ := x
    obtain ⟨h1, rfl⟩ := hl d n List.mem_cons_self
    obtain ⟨e1, e2⟩ := ensureDim_succeeds h h1
    unfold ensureDims
    rcases hr : ensureDim f d (some (L d)) with ⟨f1, r⟩
    rw [hr] at e1 e2
    dsimp only at e1 e2
    subst e1
    dsimp only
    exact ih e2 (fun d n hm => hl d n (List.mem_cons_of_mem _ hm))

theorem mem_zip_dims {L : String → Nat} {ds : List String} {d : String} {n : Nat}
    (h : (d, n) ∈ ds.zip (ds.map L)) : d ∈ ds ∧ n = L d := by
  induction ds with
  | nil => cases h
  | cons x ds ih =>
    simp only [List.map_cons, List.zip_cons_cons, List.mem_cons, Prod.mk.injEq] at h
    rcases h with ⟨rfl, rfl⟩ | h
    · exact ⟨List.mem_cons_self, rfl⟩
    · obtain ⟨h1, h2⟩ := ih h
      exact ⟨List.mem_cons_of_mem _ h1, h2⟩

theorem ensureVar_succeeds {L : String → Nat} {f : NCFile} (h : DimsAgree L f) {n : String} {s : NCStack}
    (hsh : s.shape = s.dims.map L) (ht : "time" ∉ s.dims)
    (hv : ∀ v, f.vars.get? n = some v → v.dims = "time" :: s.dims ∧
      ∀ k u, (k, u) ∈ s.attrs → v.attrs.get? k = some u) :
    (ensureVar f n s).2 = .ok () ∧ DimsAgree L (ensureVar f n s).1 := by
  unfold ensureVar
  cases hg : f.vars.get? n with
  | some v =>
    dsimp only
    obtain ⟨h1, h2⟩ := hv v hg
    rw [if_pos h1]
    refine ⟨?_, h⟩
    unfold attrsCompatible
    rw [if_pos]
    rw [List.all_eq_true]
    rintro ⟨k, u⟩ hk
    rw [beq_iff_eq]
    exact h2 k u hk
  | none =>
    dsimp only
    have htime : ensureDim f "time" none = (f, .ok ()) := by
      unfold ensureDim
      rw [h.time]
    rw [htime]
    dsimp only
    have hz : ∀ d m, (d, m) ∈ s.dims.zip s.shape → d ≠ "time" ∧ m = L d := by
      intro d m hm
      rw [hsh] at hm
      obtain ⟨h1, h2⟩ := mem_zip_dims hm
      exact ⟨fun e => ht (e ▸ h1), h2⟩
    obtain ⟨e1, e2⟩ := ensureDims_succeeds h hz
    rcases hr : ensureDims f (s.dims.zip s.shape) with ⟨f1, r⟩
    rw [hr] at e1 e2
    dsimp only at e1 e2
    subst e1
    exact ⟨rfl, ⟨e2.len, e2.only, e2.time⟩⟩

theorem DimsAgree.rowShape {L : String → Nat} {f : NCFile} (h : DimsAgree L f) {ds : List String}
    (hex : ∀ d ∈ ds, d ∈ Dict.keys f.dims) (ht : "time" ∉ ds) : Verif.rowShape f ds = ds.map L := by
  rw [rowShape_eq]
  refine List.map_congr_left fun d hd => ?_
  obtain ⟨x, hx⟩ := Dict.get?_of_mem_keys (hex d hd)
  unfold dimLen
  rw [hx]
  cases x with
  | none => exact absurd hd (h.only d hx ▸ ht)
  | some n => exact (h.len d n hx).symm

theorem writeVars_succeeds {L : String → Nat} (start : Nat) {l : Dict NCStack} {f : NCFile} (h : DimsAgree L f)
    (hf : f.WF) (hn : (Dict.keys l).Nodup)
    (hl : ∀ n s, (n, s) ∈ l → s.shape = s.dims.map L ∧ "time" ∉ s.dims ∧ (∀ r ∈ s.rows, r.shape = s.shape) ∧
      ∀ v, f.vars.get? n = some v → v.dims = "time" :: s.dims ∧ ∀ k u, (k, u) ∈ s.attrs → v.attrs.get? k = some u) :
    (writeVars start l f).2 = .ok () ∧ DimsAgree L (writeVars start l f).1 := by
  induction l generalizing f with
  | nil => exact ⟨rfl, h⟩
  | cons x l ih =>
    obtain ⟨n, s⟩ := x
    rw [show Dict.keys ((n, s) :: l) = n :: Dict.keys l from rfl, List.nodup_cons] at hn
    obtain ⟨a1, a2, a3, a4⟩ := hl n s List.mem_cons_self
    have hlen : s.dims.length = s.shape.length := by rw [a1, List.length_map]
    obtain ⟨e1, e2⟩ := ensureVar_succeeds h a1 a2 a4
    have k1 := ensureVar_keeps start f n s
    have o1 := @ensureVar_ok f n s
    have w1 := ensureVar_wf hf n s hlen
    unfold writeVars
    rcases hr : ensureVar f n s with ⟨f1, r⟩
    rw [hr] at e1 e2 k1 o1 w1
    dsimp only at e1 e2 k1 o1 w1
    subst e1
    dsimp only
    obtain ⟨v, v1, v2, -, -⟩ := o1 rfl
    have hrow : rowShape f1 s.dims = s.shape := by
      obtain ⟨ds, hds, hex⟩ := w1 n v v1
      rw [v2] at hds
      injection hds with _ hds
      subst hds
      rw [e2.rowShape hex a2, a1]
    have k2 := writeRows_keeps start f1 n s
    have w2 := writeRows_wf w1 start n s
    have hok : (writeRows f1 start n s).2 = .ok () ∧ (writeRows f1 start n s).1.dims = f1.dims := by
      unfold writeRows
      rw [v1]
      dsimp only
      obtain ⟨rows, hrows⟩ := mapM_ok_of (f := fun r => assignTo r (rowShape f1 v.dims.tail)) (l := s.rows)
        (fun r hr => ⟨r, assignTo_same (by rw [v2, List.tail_cons, hrow]; exact a3 r hr)⟩)
      rw [hrows]
      exact ⟨rfl, rfl⟩
    rcases hr2 : writeRows f1 start n s with ⟨f2, r2⟩
    rw [hr2] at k2 w2 hok
    dsimp only at k2 w2 hok
    obtain ⟨hok1, hok2⟩ := hok
    subst hok1
    dsimp only
    refine ih ⟨?_, ?_, ?_⟩ w2 hn.2 ?_
    · rw [hok2]; exact e2.len
    · unfold OnlyTime; rw [hok2]; exact e2.only
    · rw [hok2]; exact e2.time
    · intro q s' hq
      obtain ⟨b1, b2, b3, b4⟩ := hl q s' (List.mem_cons_of_mem _ hq)
      refine ⟨b1, b2, b3, fun v hv => b4 v ?_⟩
      have hne : q ≠ n := by
        rintro rfl
        exact hn.1 (Dict.mem_keys_of_mem hq)
      rw [k2.2.2 q hne, k1.2 q hne] at hv
      exact hv

theorem combineStates_succeeds {states : List State} (hne : states ≠ []) (hn : ∀ s ∈ states, (Dict.keys s).Nodup)
    (hk : ∀ s ∈ states, ∀ s' ∈ states, ∀ q, q ∈ Dict.keys s ↔ q ∈ Dict.keys s')
    (hda : ∀ s ∈ states, ∀ q v, Dict.get? s q = some v → ∃ a, v = .da a ∧ a.arr.shape.length ≠ 0)
    (hsh : ∀ s ∈ states, ∀ s' ∈ states, ∀ q a a', Dict.get? s q = some (.da a) → Dict.get? s' q = some (.da a') →
      a.arr.shape = a'.arr.shape) : ∃ stk, combineStates states = .ok stk := by
  unfold combineStates
  cases states with
  | nil => exact absurd rfl hne
  | cons first rest =>
    dsimp only
    have hfirst : first ∈ first :: rest := List.mem_cons_self
    obtain ⟨header, hh⟩ : ∃ h, stackHeader first = .ok h := by
      unfold stackHeader
      refine mapM_ok_of ?_
      rintro ⟨q, v⟩ hm
      obtain ⟨a, rfl, -⟩ := hda first hfirst q v (Dict.get?_of_mem (hn _ hfirst) hm)
      exact ⟨_, rfl⟩
    obtain ⟨k1, k2⟩ := stackHeader_ok hh
    obtain ⟨rows, hrows⟩ : ∃ r, (first :: rest).mapM (fun s => s.mapM (stackRow header)) = .ok r := by
      refine mapM_ok_of fun s hs => mapM_ok_of ?_
      rintro ⟨q, v⟩ hm
      have hg := Dict.get?_of_mem (hn s hs) hm
      obtain ⟨a, rfl, ha⟩ := hda s hs q v hg
      have hqk : q ∈ Dict.keys header := by
        rw [k1]
        exact (hk s hs first hfirst q).1 (Dict.mem_keys_of_get? hg)
      obtain ⟨hd, hhd⟩ := Dict.get?_of_mem_keys hqk
      have hfq := k2 q
      rw [hhd] at hfq
      have hshape := hsh s hs first hfirst q a hd hg hfq
      refine ⟨(q, a.arr), ?_⟩
      unfold stackRow
      dsimp only
      rw [if_neg ha, Dict.get_eq_ok.2 hhd, Exc.ok_bind, if_neg (by rw [← hshape]; exact ha), assignTo_same hshape]
      rfl
    rw [hh, Exc.ok_bind, hrows]
    exact ⟨_, rfl⟩

theorem writeFile_succeeds {us : Rat} {deltas : Bool} {c : NCCache} {ps : List (Int × State)} {f : NCFile}
    {L : String → Nat} (hc : CacheOf c ps) (hok : ∀ t s, (t, s) ∈ c → StateOk s) (hf : f.Valid us deltas)
    (hne : ps ≠ []) (hreg : RegularBatch f ps) (hfit : FitsFile L f ps)
    (hkeys : ncCheckKeys c f = .ok ()) :
    (ncWriteFile us deltas c f).2 = .ok () ∧ DimsAgree L (ncWriteFile us deltas c f).1 := by
  unfold ncWriteFile
  rw [hkeys]
  dsimp only
  obtain ⟨same, -⟩ := (ncCheckKeys_iff (f := f) hc.keys hf.nodup).1.1 hkeys
  have hperm := ncSort_perm c
  have hcne : c ≠ [] := by
    rintro rfl
    cases ps with
    | nil => exact hne rfl
    | cons p ps => exact absurd ((hc.times p.1).2 ⟨p, List.mem_cons_self, rfl⟩) (by simp)
  have hlast : ∀ t s q, (t, s) ∈ c → Dict.get? s q = lastStored ps t q := by
    intro t s q hm
    rw [← hc.vals, cacheGet_of_mem hc.nodup hm]
    rfl
  cases hs : ncSort c with
  | nil => exact absurd (ncSort_nil.1 hs) hcne
  | cons x rest =>
    obtain ⟨t0, s0⟩ := x
    rw [hs] at hperm
    dsimp only
    obtain ⟨e1, e2, e3, e4, e5, e6, e7, e8⟩ := ensureTime_spec us deltas f t0
    have hv := ensureTime_valid hf t0
    have hT : (ensureTime us deltas f t0).2 = .ok () ∧ DimsAgree L (ensureTime us deltas f t0).1 := by
      have hD : (ensureDim f "time" none).2 = .ok () ∧ DimsAgree L (ensureDim f "time" none).1 := by
        have ho := ensureDim_onlyTime hf.unlimited (d := "time") (n := none) (fun _ => rfl)
        unfold ensureDim at ho ⊢
        cases ht : f.dims.get? "time" with
        | none =>
          rw [ht] at ho
          refine ⟨rfl, ⟨?_, ho, Dict.get?_set_self _ _ _⟩⟩
          intro d n hn
          dsimp only at hn
          rw [Dict.get?_set] at hn
          split at hn
          · cases hn
          · exact hfit.dims d n hn
        | some x =>
          have := hfit.time x ht
          subst this
          exact ⟨rfl, ⟨hfit.dims, hf.unlimited, ht⟩⟩
      unfold ensureTime
      rcases hr : ensureDim f "time" none with ⟨f1, r⟩
      rw [hr] at hD
      obtain ⟨d1, d2⟩ := hD
      dsimp only at d1 d2
      subst d1
      dsimp only
      cases f1.timeVar with
      | some x => exact ⟨rfl, d2⟩
      | none => exact ⟨rfl, ⟨d2.len, d2.only, d2.time⟩⟩
    rcases hr : ensureTime us deltas f t0 with ⟨f1, r⟩
    rw [hr] at hT hv e3
    obtain ⟨hT1, hT2⟩ := hT
    dsimp only at hT1 hT2 hv e3
    subst hT1
    dsimp only
    generalize hL : (t0, s0) :: rest = l at *
    have hstates : ∀ s, s ∈ l.map (·.2) ↔ ∃ t, (t, s) ∈ c := by
      intro s
      rw [List.mem_map]
      constructor
      · rintro ⟨⟨t, s'⟩, hm, rfl⟩
        exact ⟨t, hperm.mem_iff.1 hm⟩
      · rintro ⟨t, hm⟩
        exact ⟨(t, s), hperm.mem_iff.2 hm, rfl⟩
    have hn : ∀ s ∈ l.map (·.2), (Dict.keys s).Nodup := by
      intro s hs'
      obtain ⟨t, hm⟩ := (hstates s).1 hs'
      exact hc.keys t s hm
    have hk : ∀ s ∈ l.map (·.2), ∀ s' ∈ l.map (·.2), ∀ q, q ∈ Dict.keys s ↔ q ∈ Dict.keys s' := by
      intro s hs' s' hs'' q
      obtain ⟨t, hm⟩ := (hstates s).1 hs'
      obtain ⟨t', hm'⟩ := (hstates s').1 hs''
      exact same t s t' s' hm hm' q
    have hshape : ∀ s ∈ l.map (·.2), ∀ s' ∈ l.map (·.2), ∀ q a a', Dict.get? s q = some (.da a) →
        Dict.get? s' q = some (.da a') → a.arr.shape = a'.arr.shape := by
      intro s hs' s' hs'' q a a' ha ha'
      obtain ⟨t, hm⟩ := (hstates s).1 hs'
      obtain ⟨t', hm'⟩ := (hstates s').1 hs''
      rw [hlast t s q hm] at ha
      rw [hlast t' s' q hm'] at ha'
      exact (hreg.1 q t t' a a' ha ha').2.1
    obtain ⟨stk, hcs⟩ := combineStates_succeeds (states := l.map (·.2)) (by rw [← hL]; simp) hn hk
      (fun s hs' q v hq => by
        obtain ⟨t, hm⟩ := (hstates s).1 hs'
        rw [hlast t s q hm] at hq
        obtain ⟨a, h1, h2, -⟩ := hfit.arrays q t v hq
        exact ⟨a, h1, h2⟩) hshape
    rw [hcs]
    dsimp only
    obtain ⟨n1, n2, n3, n4⟩ := combineStates_ok hcs hn hk
    have hv2 := appendTimes_valid hv (l.map (·.1))
    refine writeVars_succeeds (L := L) _ ⟨hT2.len, hT2.only, hT2.time⟩ hv2.wf n1 ?_
    intro q st hm
    have hst := Dict.get?_of_mem n1 hm
    obtain ⟨hd, ⟨s', hs', hg⟩, d1, d2, d3, d4, d5⟩ := n4 q st hst
    obtain ⟨t'', hm''⟩ := (hstates s').1 hs'
    have hg' := hg
    rw [hlast t'' s' q hm''] at hg'
    obtain ⟨a, ha, -, hsh⟩ := hfit.arrays q t'' _ hg'
    injection ha with ha
    subst ha
    refine ⟨by rw [d1, d2, hsh], by rw [d1]; exact (hreg.2.2 q t'' hd hg').2, ?_, ?_⟩
    · intro r hr
      obtain ⟨j, hj⟩ := List.mem_iff_getElem?.1 hr
      have hjl : j < (l.map (·.2)).length := by
        rw [← d4]
        exact (List.getElem?_eq_some_iff.1 hj).1
      have hsj : (l.map (·.2))[j]? = some ((l.map (·.2))[j]) := List.getElem?_eq_getElem hjl
      have hmem : (l.map (·.2))[j] ∈ l.map (·.2) := List.getElem_mem hjl
      obtain ⟨v, hv'⟩ := Dict.get?_of_mem_keys ((hk _ hs' _ hmem q).1 (Dict.mem_keys_of_get? hg))
      obtain ⟨b, rfl, -⟩ := n3 _ hmem q v hv'
      have hbs := hshape _ hmem _ hs' q b hd hv' hg
      have := d5 j _ hsj b hv' hbs
      rw [hj] at this
      injection this with this
      rw [this, hbs, d2]
    · intro v hv'
      change f1.vars.get? q = some v at hv'
      rw [e3] at hv'
      obtain ⟨v1, v2⟩ := hfit.vars q t'' hd v hg' hv'
      exact ⟨by rw [d1]; exact v1, fun k u hku => v2 k u (by rw [← d3]; exact hku)⟩

end Verif
