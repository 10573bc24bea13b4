import Verif.Props.NetCDFExamples
/-!
# C49: arrays that do not fit the file

A write succeeds only if every axis of every quantity that is in the file already has the
length it has there, or length 1 (numpy then repeats its values).
-/

namespace Verif

/-- The lengths of an array fit those of an array it is assigned to. -/
def FitsShape : List Nat → List Nat → Prop := List.Forall₂ fun n m => n = m ∨ n = 1

theorem FitsShape.refl : ∀ s, FitsShape s s
  | [] => .nil
  | _ :: s => .cons (.inl rfl) (FitsShape.refl s)

theorem broadcastable_fits : ∀ {a s : List Nat}, NDArray.broadcastable a s = true → FitsShape a s
  | [], [], _ => .nil
  | x :: a, y :: s, h => by
    simp only [NDArray.broadcastable, Bool.and_eq_true, Bool.or_eq_true, beq_iff_eq] at h
    exact .cons h.1 (broadcastable_fits h.2)
  | [], _ :: _, h => by cases h
  | _ :: _, [], h => by cases h

theorem assignTo_fits {v r : NDArray} {shape : List Nat} (hl : v.shape.length = shape.length)
    (h : assignTo v shape = .ok r) : FitsShape v.shape shape := by
  unfold assignTo at h
  by_cases e : v.shape = shape
  · rw [e]; exact FitsShape.refl _
  rw [if_neg e, if_neg (by omega)] at h
  dsimp only at h
  rw [NDArray.broadcastTo] at h
  split at h
  · rename_i hb
    have := broadcastable_fits hb
    rwa [show shape.length - v.shape.length = 0 by omega, List.replicate_zero, List.nil_append] at this
  · cases h

theorem ensureVar_old {f : NCFile} {n : String} {s : NCStack} {v : NCVar} (hv : f.vars.get? n = some v) :
    (ensureVar f n s).1 = f ∧ ((ensureVar f n s).2 = .ok () → v.dims = "time" :: s.dims) := by
  unfold ensureVar
  rw [hv]
  refine ⟨rfl, fun h => ?_⟩
  dsimp only at h
  split at h
  · assumption
  · cases h

theorem writeVars_fits {start : Nat} {l : Dict NCStack} {f : NCFile} (hn : (Dict.keys l).Nodup) (hf : f.WF)
    (hl : ∀ n s, (n, s) ∈ l → s.dims.length = s.shape.length) (h : (writeVars start l f).2 = .ok ())
    {q : String} {s : NCStack} (hs : Dict.get? l q = some s) {v : NCVar} (hv : f.vars.get? q = some v) :
    v.dims = "time" :: s.dims ∧ ∀ r ∈ s.rows, ∃ r', assignTo r (rowShape f s.dims) = .ok r' := by
  induction l generalizing f with
  | nil => cases hs
  | cons x l ih =>
    obtain ⟨n, s'⟩ := x
    rw [Dict.keys_cons, List.nodup_cons] at hn
    unfold writeVars at h
    rw [Dict.get?_cons] at hs
    have k1 := ensureVar_keeps start f n s'
    have a1 := ensureVar_wf hf n s' (hl n s' List.mem_cons_self)
    by_cases e : n = q
    · subst e
      rw [if_pos rfl] at hs
      injection hs with hs
      subst hs
      obtain ⟨o1, o2⟩ := ensureVar_old (s := s') hv
      rcases hr : ensureVar f n s' with ⟨f1, r⟩
      rw [hr] at h o1 o2
      cases r with
      | error e => cases h
      | ok u =>
        dsimp only at h o1 o2
        subst o1
        refine ⟨o2 rfl, fun r hr' => ?_⟩
        rcases hr2 : writeRows f1 start n s' with ⟨f2, r2⟩
        rw [hr2] at h
        cases r2 with
        | error e => cases h
        | ok u =>
          unfold writeRows at hr2
          rw [hv] at hr2
          dsimp only at hr2
          rw [o2 rfl, List.tail_cons] at hr2
          cases hm : s'.rows.mapM (fun r => assignTo r (rowShape f1 s'.dims)) with
          | error e => rw [hm] at hr2; cases hr2
          | ok rows =>
            obtain ⟨j, hj, rfl⟩ := List.mem_iff_getElem.1 hr'
            obtain ⟨r', -, ha⟩ := mapM_getElem? hm (List.getElem?_eq_getElem hj)
            exact ⟨r', ha⟩
    · rw [if_neg e] at hs
      rcases hr : ensureVar f n s' with ⟨f1, r⟩
      rw [hr] at h k1 a1
      cases r with
      | error e => cases h
      | ok u =>
        dsimp only at h k1 a1
        have k2 := writeRows_keeps start f1 n s'
        have b1 := writeRows_wf a1 start n s'
        rcases hr2 : writeRows f1 start n s' with ⟨f2, r2⟩
        rw [hr2] at h k2 b1
        cases r2 with
        | error e => cases h
        | ok u =>
          dsimp only at h k2 b1
          obtain ⟨i1, i2⟩ := ih hn.2 b1 (fun n s hm => hl n s (List.mem_cons_of_mem _ hm)) h hs
            (by rw [k2.2.2 q (Ne.symm e), k1.2 q (Ne.symm e)]; exact hv)
          refine ⟨i1, ?_⟩
          obtain ⟨ds, hds, hex⟩ := hf q v hv
          rw [i1] at hds
          injection hds with _ hds
          subst hds
          rwa [(k1.1.trans k2.1).rowShape hex] at i2

/-- **C49.**  After any sequence of calls, a `write` succeeds only if the arrays of a quantity
that is in the file have, along every axis, the length in the file or length 1. -/
theorem netcdf_lengths_fit (order : SetOrder) (m : NCMon) (hm : NewMonitor m) (ops : List NCOp)
    (hops : ∀ s, .store s ∈ ops → StateOk s)
    {f : NCFile} (hf : (ncAfter order m ops).1.file = some f)
    (hw : (ncWrite (ncAfter order m ops).1).2 = .ok ())
    {q : String} {t : Int} {a : DataArray} {v : NCVar}
    (ha : lastStored (ncAfter order m ops).2 t q = some (.da a)) (hv : f.vars.get? q = some v)
    (hsame : ∀ t' a', lastStored (ncAfter order m ops).2 t' q = some (.da a') →
      a'.dims = a.dims ∧ a'.arr.shape = a.arr.shape) (htime : "time" ∉ a.dims) :
    v.dims = "time" :: a.dims ∧ FitsShape a.arr.shape (rowShape f a.dims) := by
  have hinv := ncAfter_inv (order := order) hm.inv ops hops
  obtain ⟨w1, -, -, -⟩ := ncWrite_eq (ncAfter order m ops).1
  rw [w1, hf] at hw
  have hfv := hinv.file
  rw [hf] at hfv
  have hc := hinv.cache
  have hok := hinv.states
  generalize (ncAfter order m ops).1 = M at *
  generalize (ncAfter order m ops).2 = ps at *
  simp only [Option.getD_some] at hw hfv
  rw [← hinv.us, ← hinv.deltas] at hfv
  generalize M.usPerUnit = us at *
  generalize M.deltas = deltas at *
  generalize M.cache = c at *
  have hkeys := ncCheckKeys_iff (f := f) hc.keys hfv.nodup
  unfold ncWriteFile at hw
  cases hk : ncCheckKeys c f with
  | error e => rw [hk] at hw; cases hw
  | ok u =>
    rw [hk] at hw
    dsimp only at hw
    obtain ⟨same, sameFile⟩ := hkeys.1.1 hk
    have hperm := ncSort_perm c
    cases hs : ncSort c with
    | nil => rw [hs] at hw; cases hw
    | cons x rest =>
      obtain ⟨t0, s0⟩ := x
      rw [hs] at hw hperm
      dsimp only at hw
      obtain ⟨e1, e2, e3, e4, e5, e6, e7, e8⟩ := ensureTime_spec us deltas f t0
      have hvt := ensureTime_valid hfv t0
      rcases hr : ensureTime us deltas f t0 with ⟨f1, r⟩
      rw [hr] at hw e1 e2 e3 e4 e5 e6 e7 e8 hvt
      cases r with
      | error e => cases hw
      | ok u =>
        dsimp only at hw e1 e2 e3 e4 e5 e6 e7 e8 hvt
        cases hcs : combineStates (((t0, s0) :: rest).map (·.2)) with
        | error e => rw [hcs] at hw; cases hw
        | ok stk =>
          rw [hcs] at hw
          dsimp only at hw
          generalize hL : (t0, s0) :: rest = L at *
          have hmemL : ∀ t s, (t, s) ∈ L ↔ (t, s) ∈ c := fun t s => hperm.mem_iff
          have hstates : ∀ s, s ∈ L.map (·.2) ↔ ∃ t, (t, s) ∈ c := by
            intro s
            rw [List.mem_map]
            constructor
            · rintro ⟨⟨t, s'⟩, hm, rfl⟩
              exact ⟨t, (hmemL _ _).1 hm⟩
            · rintro ⟨t, hm⟩
              exact ⟨(t, s), (hmemL _ _).2 hm, rfl⟩
          obtain ⟨n1, n2, n3, n4⟩ := combineStates_ok hcs
            (fun s hs' => by
              obtain ⟨t, hm⟩ := (hstates s).1 hs'
              exact hc.keys t s hm)
            (fun s hs' s' hs'' q => by
              obtain ⟨t, hm⟩ := (hstates s).1 hs'
              obtain ⟨t', hm'⟩ := (hstates s').1 hs''
              exact same t s t' s' hm hm' q)
          have hv2 := appendTimes_valid hvt (L.map (·.1))
          have hlast : ∀ t s q, (t, s) ∈ c → Dict.get? s q = lastStored ps t q := by
            intro t s q hm
            rw [← hc.vals, cacheGet_of_mem hc.nodup hm]
            rfl
          have hl := combineStates_len hcs (fun s hs' => by
            obtain ⟨t, hm⟩ := (hstates s).1 hs'
            exact hok t s hm)
          -- the state that holds the array
          obtain ⟨s, hsc⟩ : ∃ s, (t, s) ∈ c := by
            have := hc.vals t q
            rw [ha] at this
            cases hcg : cacheGet c t with
            | none => rw [hcg] at this; cases this
            | some s => exact ⟨s, cacheGet_mem hcg⟩
          have hsL := (hstates s).2 ⟨t, hsc⟩
          have hgs : Dict.get? s q = some (.da a) := (hlast t s q hsc).trans ha
          have hqk : q ∈ Dict.keys stk := (n2 s hsL q).2 (Dict.mem_keys_of_get? hgs)
          obtain ⟨st, hst⟩ := Dict.get?_of_mem_keys hqk
          obtain ⟨hd, ⟨s', hs', hg⟩, d1, d2, d3, d4, d5⟩ := n4 q st hst
          obtain ⟨t'', hm''⟩ := (hstates s').1 hs'
          rw [hlast t'' s' q hm''] at hg
          obtain ⟨r1, r2⟩ := hsame t'' hd hg
          obtain ⟨j, hj⟩ := List.mem_iff_getElem?.1 hsL
          have hrow := d5 j s hj a hgs r2.symm
          obtain ⟨z1, z2⟩ := writeVars_fits n1 hv2.wf hl hw hst (v := v) (by
            show f1.vars.get? q = some v
            rw [e3]
            exact hv)
          rw [d1, r1] at z1 z2
          refine ⟨z1, ?_⟩
          obtain ⟨r', hr'⟩ := z2 _ (List.mem_iff_getElem?.2 ⟨j, hrow⟩)
          have hlen : a.arr.shape.length = a.dims.length := by
            have := hl q st (Dict.mem_of_get? hst)
            rw [d1, d2, r1, r2] at this
            exact this.symm
          have hsh : rowShape (appendTimes us deltas f1 (L.map (·.1))) a.dims = rowShape f a.dims := by
            rw [rowShape_eq, rowShape_eq]
            refine List.map_congr_left fun d hdm => ?_
            obtain ⟨ds, hds, hex⟩ := hfv.wf q v hv
            rw [z1] at hds
            injection hds with _ hds
            subst hds
            obtain ⟨y, hy⟩ := Dict.get?_of_mem_keys (hex d hdm)
            unfold dimLen
            rw [show (appendTimes us deltas f1 (L.map (·.1))).dims = f1.dims from rfl, e4 d y hy, hy]
            cases y with
            | some k => rfl
            | none =>
              have := hfv.unlimited d hy
              subst this
              exact absurd hdm htime
          rw [hsh] at hr'
          exact assignTo_fits (by rw [hlen, rowShape_eq, List.length_map]) hr'

/-- A quantity along x with equal values. -/
def Demo.ncLen (n : Nat) (x : Rat) : Val := .da ⟨["x"], ⟨[n], fun _ => x⟩, [("units", "K")]⟩

/-- Three values do not fit a file with two; one does, and is repeated. -/
example :
    (ncWrite (ncAfter Demo.order Demo.ncMon [.store [("T", Demo.ncLen 2 5), ("time", .time 0)], .write,
      .store [("T", Demo.ncLen 3 7), ("time", .time 1000000)]]).1).2 = .error .valueError ∧
    (ncWrite (ncAfter Demo.order Demo.ncMon [.store [("T", Demo.ncLen 2 5), ("time", .time 0)], .write,
      .store [("T", Demo.ncLen 1 7), ("time", .time 1000000)]]).1).2 = .ok () ∧
    (match (ncAfter Demo.order Demo.ncMon [.store [("T", Demo.ncLen 2 5), ("time", .time 0)], .write,
        .store [("T", Demo.ncLen 1 7), ("time", .time 1000000)], .write]).1.file with
      | none => false
      | some f => match f.vars.get? "T" with
        | none => false
        | some v => decide ((v.rows 1).map (fun r => (r.shape, r.get [1])) = some ([2], 7))) = true := by
  refine ⟨rfl, rfl, by decide +kernel⟩

end Verif
