import Verif.Lemmas.NetCDFSuccess
import Verif.Lemmas.NetCDFAliases
import Verif.Props.Combine
import Verif.Spec.Demo
/-!
# C49 – C51: NetCDFMonitor
-/

namespace Verif

/-! ## Histories -/

theorem ncWrite_eq (m : NCMon) :
    (ncWrite m).2 = (ncWriteFile m.usPerUnit m.deltas m.cache (m.file.getD NCFile.empty)).2 ∧
    (ncWrite m).1.file = some (ncWriteFile m.usPerUnit m.deltas m.cache (m.file.getD NCFile.empty)).1 ∧
    ((ncWrite m).2 = .ok () → (ncWrite m).1.cache = []) ∧
    (∀ e, (ncWrite m).2 = .error e → (ncWrite m).1.cache = m.cache) ∧
    (ncWrite m).1.usPerUnit = m.usPerUnit ∧ (ncWrite m).1.deltas = m.deltas := by
  unfold ncWrite
  rcases ncWriteFile m.usPerUnit m.deltas m.cache (m.file.getD NCFile.empty) with ⟨f, r⟩
  cases r with
  | error e => exact ⟨rfl, rfl, fun h => (by cases h), fun _ _ => rfl, rfl, rfl⟩
  | ok u => exact ⟨rfl, rfl, fun _ => rfl, fun e h => (by cases h), rfl, rfl⟩

/-- What holds after every sequence of calls. -/
structure NCInv (m : NCMon) (ps : List (Int × State)) (us : Rat) (deltas : Bool) : Prop where
  cache : CacheOf m.cache ps
  states : ∀ t s, (t, s) ∈ m.cache → StateOk s
  file : (m.file.getD NCFile.empty).Valid us deltas
  us : m.usPerUnit = us
  deltas : m.deltas = deltas

theorem ncCacheAdd_states {c : NCCache} {t : Int} {s : State}
    (hn' : ((ncCacheAdd c t s).map (·.1)).Nodup) (h : ∀ t s, (t, s) ∈ c → StateOk s)
    (hs : StateOk s) : ∀ t' s', (t', s') ∈ ncCacheAdd c t s → StateOk s' := by
  intro t' s' hm
  have hg := cacheGet_of_mem hn' hm
  rw [cacheGet_add] at hg
  split at hg
  · injection hg with hg
    subst hg
    cases hc : cacheGet c t with
    | none => exact hs
    | some s0 =>
      have h0 := h t s0 (cacheGet_mem hc)
      refine ⟨Dict.nodup_keys_update h0.1 _, ?_⟩
      intro n a ha
      change Dict.get? (Dict.update s0 s) n = _ at ha
      rw [Dict.get?_update _ _ hs.1] at ha
      cases hsn : Dict.get? s n with
      | none =>
        rw [hsn, Option.none_or] at ha
        exact h0.2 n a ha
      | some v =>
        rw [hsn, Option.some_or] at ha
        injection ha with ha
        subst ha
        exact hs.2 n a hsn
  · exact h t' s' (cacheGet_mem hg)

theorem write_inv {m : NCMon} {ps : List (Int × State)} {us : Rat} {deltas : Bool} (h : NCInv m ps us deltas) :
    NCInv (ncWrite m).1 (if (ncWrite m).2.isOk then [] else ps) us deltas := by
  obtain ⟨-, w2, w3, w4, w5, w6⟩ := ncWrite_eq m
  have hv : ((ncWrite m).1.file.getD NCFile.empty).Valid us deltas := by
    rw [w2, ← h.us, ← h.deltas]
    exact writeFile_valid (by rw [h.us, h.deltas]; exact h.file) h.states
  cases hr : (ncWrite m).2 with
  | ok u =>
    refine ⟨?_, ?_, hv, w5.trans h.us, w6.trans h.deltas⟩
    · rw [w3 hr]
      exact cacheOf_nil
    · rw [w3 hr]
      intro t s hm
      cases hm
  | error e =>
    refine ⟨?_, ?_, hv, w5.trans h.us, w6.trans h.deltas⟩
    · rw [w4 e hr]
      exact h.cache
    · rw [w4 e hr]
      exact h.states

/-- The invariant after adding a prepared state to the cache. -/
theorem add_inv {order : SetOrder} {m : NCMon} {ps : List (Int × State)} {us : Rat} {deltas : Bool}
    (h : NCInv m ps us deltas) {s cs : State} {t : Int} (hs : StateOk s) (hp : ncPrepare order m s = .ok (t, cs)) :
    NCInv { m with cache := ncCacheAdd m.cache t cs } (ps ++ [(t, cs)]) us deltas := by
  have hcs := ncPrepare_ok hs hp
  have hc := cacheOf_add h.cache t cs hcs.1
  exact ⟨hc, ncCacheAdd_states hc.nodup h.states hcs, h.file, h.us, h.deltas⟩

theorem op_run_inv {order : SetOrder} {m : NCMon} {ps : List (Int × State)} {us : Rat} {deltas : Bool}
    (h : NCInv m ps us deltas) (op : NCOp) (hop : ∀ s, op = .store s → StateOk s) :
    NCInv (op.run order (m, ps)).1 (op.run order (m, ps)).2 us deltas := by
  cases op with
  | write => exact write_inv h
  | store s =>
    have hs := hop s rfl
    show NCInv (ncStore order m s).1 (match ncPrepare order m s with
      | .error _ => ps
      | .ok p => if m.writeOnStore ∧ (ncStore order m s).2.isOk then [] else ps ++ [p]) us deltas
    cases hp : ncPrepare order m s with
    | error e =>
      have hst : ncStore order m s = (m, .error e) := by unfold ncStore; rw [hp]
      rw [hst]
      exact h
    | ok p =>
      obtain ⟨t, cs⟩ := p
      have ha := add_inv h hs hp
      by_cases hw : m.writeOnStore = true
      · have hst : ncStore order m s = ncWrite { m with cache := ncCacheAdd m.cache t cs } := by
          unfold ncStore; rw [hp]; exact if_pos hw
        have := write_inv ha
        simpa [hst, hw] using this
      · have hst : ncStore order m s = ({ m with cache := ncCacheAdd m.cache t cs }, .ok ()) := by
          unfold ncStore; rw [hp]; exact if_neg hw
        simpa [hst, hw] using ha

theorem ncAfter_inv {order : SetOrder} {m : NCMon} {us : Rat} {deltas : Bool} (h : NCInv m [] us deltas)
    (ops : List NCOp) (hops : ∀ s, .store s ∈ ops → StateOk s) :
    NCInv (ncAfter order m ops).1 (ncAfter order m ops).2 us deltas := by
  unfold ncAfter
  have gen : ∀ (ops : List NCOp) (mp : NCMon × List (Int × State)), (∀ s, .store s ∈ ops → StateOk s) →
      NCInv mp.1 mp.2 us deltas →
      NCInv (ops.foldl (NCOp.run order) mp).1 (ops.foldl (NCOp.run order) mp).2 us deltas := by
    intro ops
    induction ops with
    | nil => exact fun mp _ h => h
    | cons op ops ih =>
      intro mp ho h
      exact ih _ (fun s hs => ho s (List.mem_cons_of_mem _ hs))
        (op_run_inv h op (fun s hs => ho s (by rw [hs]; exact List.mem_cons_self)))
  exact gen ops (m, []) hops h

/-- A new monitor: nothing is cached, and the file is absent or was written by such a
monitor. -/
def NewMonitor (m : NCMon) : Prop :=
  m.cache = [] ∧ 0 < m.usPerUnit ∧ (m.file.getD NCFile.empty).Valid m.usPerUnit m.deltas

theorem NewMonitor.inv {m : NCMon} (h : NewMonitor m) : NCInv m [] m.usPerUnit m.deltas := by
  obtain ⟨h1, -, h3⟩ := h
  refine ⟨by rw [h1]; exact cacheOf_nil, ?_, h3, rfl, rfl⟩
  rw [h1]
  intro t s hm
  cases hm

/-! ## C49 -/

/-- **C49.**  After any sequence of `store` and `write` calls, with or without
exceptions: a `write` that does not raise appends the states stored since the last such
write, one record per distinct time in increasing order, with the value stored last for
every quantity; earlier records are unchanged; the cache is empty.  The time of a record
is its number of units since the file's reference time, exact if it is an integer.
Assumes that a quantity has the same dims, shape and attributes in all states of the
batch (`netcdf_mixes_units`, `netcdf_mixes_dims`). -/
theorem netcdf_write_partial (order : SetOrder) (m : NCMon) (hm : NewMonitor m) (ops : List NCOp)
    (hops : ∀ s, .store s ∈ ops → StateOk s)
    (hreg : RegularBatch ((ncAfter order m ops).1.file.getD NCFile.empty) (ncAfter order m ops).2)
    (hw : (ncWrite (ncAfter order m ops).1).2 = .ok ()) :
    ∃ f' ts us ref, (ncWrite (ncAfter order m ops).1).1.file = some f' ∧
      (ncWrite (ncAfter order m ops).1).1.cache = [] ∧
      Appended ((ncAfter order m ops).1.file.getD NCFile.empty) f' (ncAfter order m ops).2 ts ∧
      f'.timeVar = some (us, ref) ∧
      (∀ x, ((ncAfter order m ops).1.file.getD NCFile.empty).timeVar = some x → x = (us, ref)) ∧
      ∀ (j : Nat) t, ts[j]? = some t →
        ∃ n, f'.times (((ncAfter order m ops).1.file.getD NCFile.empty).ntime + j) = some n ∧ TimeNumber us ref t n := by
  have hinv := ncAfter_inv (order := order) hm.inv ops hops
  obtain ⟨w1, w2, w3, -⟩ := ncWrite_eq (ncAfter order m ops).1
  rw [w1] at hw
  obtain ⟨ts, ha, us, ref, t1, t2, -, t4⟩ := writeFile_appends hinv.cache hinv.states
    (by rw [hinv.us, hinv.deltas]; exact hinv.file) hreg hw
  exact ⟨_, ts, us, ref, w2, w3 (by rw [w1]; exact hw), ha, t1, t2, t4 (by rw [hinv.us]; exact hm.2.1)⟩

/-- **C49**, for a store with `write_on_store`: the state itself is among those
appended. -/
theorem netcdf_write_on_store_partial (order : SetOrder) (m : NCMon) (hm : NewMonitor m) (ops : List NCOp)
    (hops : ∀ s, .store s ∈ ops → StateOk s) (s : State) (hs : StateOk s) (t : Int) (cs : State)
    (hwos : (ncAfter order m ops).1.writeOnStore = true)
    (hp : ncPrepare order (ncAfter order m ops).1 s = .ok (t, cs))
    (hreg : RegularBatch ((ncAfter order m ops).1.file.getD NCFile.empty) ((ncAfter order m ops).2 ++ [(t, cs)]))
    (hw : (ncStore order (ncAfter order m ops).1 s).2 = .ok ()) :
    ∃ f' ts, (ncStore order (ncAfter order m ops).1 s).1.file = some f' ∧
      (ncStore order (ncAfter order m ops).1 s).1.cache = [] ∧
      Appended ((ncAfter order m ops).1.file.getD NCFile.empty) f' ((ncAfter order m ops).2 ++ [(t, cs)]) ts := by
  have hinv := add_inv (ncAfter_inv (order := order) hm.inv ops hops) hs hp
  unfold ncStore at hw ⊢
  rw [hp] at hw ⊢
  dsimp only at hw ⊢
  rw [if_pos hwos] at hw ⊢
  obtain ⟨w1, w2, w3, -⟩ := ncWrite_eq { (ncAfter order m ops).1 with cache := ncCacheAdd (ncAfter order m ops).1.cache t cs }
  have hw' := hw
  rw [w1] at hw'
  obtain ⟨ts, ha, -⟩ := writeFile_appends hinv.cache hinv.states
    (by rw [hinv.us, hinv.deltas]; exact hinv.file) hreg hw'
  exact ⟨_, ts, w2, w3 hw, ha⟩

/-- **C49.**  A `write` with nothing stored raises ValueError and changes no record. -/
theorem netcdf_write_nothing (order : SetOrder) (m : NCMon) (hm : NewMonitor m) (ops : List NCOp)
    (hops : ∀ s, .store s ∈ ops → StateOk s) (h : (ncAfter order m ops).2 = []) :
    (ncWrite (ncAfter order m ops).1).2 = .error .valueError ∧
    (ncWrite (ncAfter order m ops).1).1.file = some ((ncAfter order m ops).1.file.getD NCFile.empty) := by
  have hinv := ncAfter_inv (order := order) hm.inv ops hops
  have hc : (ncAfter order m ops).1.cache = [] := by
    cases hc : (ncAfter order m ops).1.cache with
    | nil => rfl
    | cons x l =>
      have := (hinv.cache.times x.1).1 (by rw [hc]; simp)
      rw [h] at this
      obtain ⟨p, hp, -⟩ := this
      cases hp
  obtain ⟨w1, w2, -⟩ := ncWrite_eq (ncAfter order m ops).1
  rw [w1, w2, hc]
  exact ⟨rfl, rfl⟩

/-! ## C50 -/

/-- **C50.**  After any sequence of calls: if the quantities of a state to be written
differ from those of another or of the file, `write` raises InvalidStateError, the file is
unchanged and the cache is kept.  Assumes, for the comparison with the file, that the
file has a quantity (`netcdf_quantities_added`). -/
theorem netcdf_rejects_partial (order : SetOrder) (m : NCMon) (hm : NewMonitor m) (ops : List NCOp)
    (hops : ∀ s, .store s ∈ ops → StateOk s)
    (h : InconsistentBatch ((ncAfter order m ops).1.file.getD NCFile.empty) (ncAfter order m ops).2) :
    (ncWrite (ncAfter order m ops).1).2 = .error .invalidState ∧
    (ncWrite (ncAfter order m ops).1).1.file = some ((ncAfter order m ops).1.file.getD NCFile.empty) ∧
    (ncWrite (ncAfter order m ops).1).1.cache = (ncAfter order m ops).1.cache := by
  have hinv := ncAfter_inv (order := order) hm.inv ops hops
  generalize hm' : (ncAfter order m ops).1 = m' at *
  generalize hps : (ncAfter order m ops).2 = ps at *
  obtain ⟨k1, k2⟩ := ncCheckKeys_iff (f := m'.file.getD NCFile.empty) hinv.cache.keys hinv.file.nodup
  have hget : ∀ p ∈ ps, ∃ s, (p.1, s) ∈ m'.cache ∧ ∀ q, (lastStored ps p.1 q).isSome ↔ q ∈ Dict.keys s := by
    intro p hp
    obtain ⟨⟨t, s⟩, hts, e⟩ := List.mem_map.1 ((hinv.cache.times p.1).2 ⟨p, hp, rfl⟩)
    dsimp only at e
    subst e
    refine ⟨s, hts, fun q => ?_⟩
    rw [← hinv.cache.vals, cacheGet_of_mem hinv.cache.nodup hts]
    exact Dict.get?_isSome_iff _ _
  have herr : ncCheckKeys m'.cache (m'.file.getD NCFile.empty) = .error .invalidState := by
    cases hk : ncCheckKeys m'.cache (m'.file.getD NCFile.empty) with
    | error e => rw [k2 e hk]
    | ok u =>
      exfalso
      obtain ⟨s1, s2⟩ := k1.1 hk
      rcases h with ⟨p, hp, p', hp', q, hq, hq'⟩ | ⟨hv, p, hp, q, hq⟩
      · obtain ⟨s, hs, hsq⟩ := hget p hp
        obtain ⟨s', hs', hsq'⟩ := hget p' hp'
        exact hq' ((hsq' q).2 ((s1 _ _ _ _ hs hs' q).1 ((hsq q).1 hq)))
      · obtain ⟨s, hs, hsq⟩ := hget p hp
        exact hq ((hsq q).trans (s2 hv _ _ hs q))
  have hfile : ncWriteFile m'.usPerUnit m'.deltas m'.cache (m'.file.getD NCFile.empty) =
      (m'.file.getD NCFile.empty, .error .invalidState) := by
    unfold ncWriteFile
    rw [herr]
  obtain ⟨w1, w2, -, w4, -⟩ := ncWrite_eq m'
  rw [hfile] at w1 w2
  exact ⟨w1, w2, w4 _ w1⟩

/-- **C49, C50.**  Conversely, after any sequence of calls `write` does not raise if there
is a state to be written, the states are consistent, and the quantities fit together and
to the file. -/
theorem netcdf_write_succeeds (order : SetOrder) (m : NCMon) (hm : NewMonitor m) (ops : List NCOp)
    (hops : ∀ s, .store s ∈ ops → StateOk s) (L : String → Nat) (hne : (ncAfter order m ops).2 ≠ [])
    (hreg : RegularBatch ((ncAfter order m ops).1.file.getD NCFile.empty) (ncAfter order m ops).2)
    (hfit : FitsFile L ((ncAfter order m ops).1.file.getD NCFile.empty) (ncAfter order m ops).2)
    (hcons : ¬ InconsistentBatch ((ncAfter order m ops).1.file.getD NCFile.empty) (ncAfter order m ops).2) :
    (ncWrite (ncAfter order m ops).1).2 = .ok () := by
  have hinv := ncAfter_inv (order := order) hm.inv ops hops
  generalize hm' : (ncAfter order m ops).1 = m' at *
  generalize hps : (ncAfter order m ops).2 = ps at *
  rw [(ncWrite_eq m').1]
  refine (writeFile_succeeds hinv.cache hinv.states (by rw [hinv.us, hinv.deltas]; exact hinv.file) hne hreg hfit ?_).1
  have hget : ∀ t s, (t, s) ∈ m'.cache → (∃ p ∈ ps, p.1 = t) ∧ ∀ q, (lastStored ps t q).isSome ↔ q ∈ Dict.keys s := by
    intro t s hm
    refine ⟨(hinv.cache.times t).1 (List.mem_map.2 ⟨_, hm, rfl⟩), fun q => ?_⟩
    rw [← hinv.cache.vals, cacheGet_of_mem hinv.cache.nodup hm]
    exact Dict.get?_isSome_iff _ _
  refine (ncCheckKeys_iff hinv.cache.keys hinv.file.nodup).1.2 ⟨?_, ?_⟩
  · intro t s t' s' hts hts' q
    obtain ⟨⟨p, hp, rfl⟩, hq⟩ := hget t s hts
    obtain ⟨⟨p', hp', rfl⟩, hq'⟩ := hget t' s' hts'
    rw [← hq, ← hq']
    constructor
    · intro h1
      by_contra h2
      exact hcons (.inl ⟨p, hp, p', hp', q, h1, h2⟩)
    · intro h1
      by_contra h2
      exact hcons (.inl ⟨p', hp', p, hp, q, h1, h2⟩)
  · intro hv t s hts q
    obtain ⟨⟨p, hp, rfl⟩, hq⟩ := hget t s hts
    rw [← hq]
    by_contra h2
    exact hcons (.inr ⟨hv, p, hp, q, h2⟩)

/-! ## C51 -/

/-- **C51.**  An alias replaces every occurrence of its key in a name, from the left and
without overlap, and this determines the name. -/
theorem alias_replaces (long short name : String) (h : long ≠ "") :
    Replaced long.toList short.toList name.toList (ncRename long short name).toList ∧
    ∀ t, Replaced long.toList short.toList name.toList t → t = (ncRename long short name).toList := by
  have hl : long.toList ≠ [] := fun e => h (String.toList_inj.1 (by rw [e]; rfl))
  have h1 := ncRename_replaced h (short := short) name
  exact ⟨h1, fun t ht => (replaced_eq hl ht).trans (replaced_eq hl h1).symm⟩

/-- **C51.**  If no alias gives a quantity the name of another one, makes a name empty or
renames the time, then a store keeps exactly the selected quantities, each under its name
after all aliases.  Without the condition on names that another quantity has *before* the
alias, and on the time, this is false: `alias_loses_quantity`, `alias_renames_time`. -/
theorem netcdf_aliases_partial (order : SetOrder) (m : NCMon) (s : State) (hs : StateOk s) (t : Int)
    (ht : Dict.get? s "time" = some (.time t)) (he : ¬ Selected m.storeNames s "")
    (hal : NoClash m.aliases (Selected m.storeNames s)) (htime : finalName m.aliases "time" = "time") :
    ∃ cs, ncPrepare order m s = .ok (t, cs) ∧
      (∀ n, Selected m.storeNames s n → n ≠ "time" → Dict.get? cs (finalName m.aliases n) = Dict.get? s n) ∧
      ∀ n', n' ∈ Dict.keys cs ↔ ∃ n, Selected m.storeNames s n ∧ n ≠ "time" ∧ finalName m.aliases n = n' := by
  obtain ⟨sn, sv⟩ := ncSelect_spec order m.storeNames hs.1
  have hsel := mem_select (order := order) (names := m.storeNames) hs.1
  have he' : "" ∉ Dict.keys (ncSelect order m.storeNames s) := fun h => he ((hsel _).2 h)
  obtain ⟨cs', a1, a2, a3, a4, a5, a6⟩ := ncAliases_spec sn he' hsel hal
  have htsel : Selected m.storeNames s "time" := ⟨Dict.mem_keys_of_get? ht, .inl rfl⟩
  have htk := (hsel _).1 htsel
  have hval : ∀ n, Selected m.storeNames s n → Dict.get? (ncSelect order m.storeNames s) n = Dict.get? s n := by
    intro n hn
    rw [sv n, if_pos hn.2]
  have httime : Dict.get? cs' "time" = some (.time t) := by
    have := a4 "time" htk
    rw [htime, hval _ htsel, ht] at this
    exact this
  have hkeep : ∀ n, Selected m.storeNames s n → n ≠ "time" → finalName m.aliases n ≠ "time" := by
    intro n hn hne e
    exact hne (a6 n ((hsel n).1 hn) "time" htk (e.trans htime.symm))
  refine ⟨Dict.erase cs' "time", ?_, ?_, ?_⟩
  · unfold ncPrepare State.time
    dsimp only
    rw [if_neg he', a1, Exc.ok_bind, httime, ht]
    rfl
  · intro n hn hne
    rw [Dict.get?_erase_ne _ (Ne.symm (hkeep n hn hne)), a4 n ((hsel n).1 hn)]
    exact hval n hn
  · intro n'
    rw [Dict.keys_erase, a2.mem_erase_iff]
    constructor
    · rintro ⟨h1, h2⟩
      obtain ⟨n, hn, rfl⟩ := a5 n' h2
      refine ⟨n, (hsel n).2 hn, ?_, rfl⟩
      rintro rfl
      exact h1 htime
    · rintro ⟨n, hn, hne, rfl⟩
      refine ⟨hkeep n hn hne, ?_⟩
      obtain ⟨v, hv⟩ := Dict.get?_of_mem_keys ((hsel n).1 hn)
      exact Dict.mem_keys_of_get? ((a4 n ((hsel n).1 hn)).trans hv)

/-- **C51.**  An alias that makes a name empty raises ValueError; nothing is cached or
written.  The aliases before it must not make names equal. -/
theorem netcdf_alias_empty_partial (order : SetOrder) (m : NCMon) (s : State) (hs : StateOk s)
    (he : ¬ Selected m.storeNames s "") (pre post : Dict String) (long short : String)
    (hm : m.aliases = pre ++ (long, short) :: post) (hal : NoClash pre (Selected m.storeNames s)) (n : String)
    (hn : Selected m.storeNames s n) (hempty : ncRename long short (finalName pre n) = "") :
    ncStore order m s = (m, .error .valueError) := by
  obtain ⟨sn, -⟩ := ncSelect_spec order m.storeNames hs.1
  have hsel := mem_select (order := order) (names := m.storeNames) hs.1
  have he' : "" ∉ Dict.keys (ncSelect order m.storeNames s) := fun h => he ((hsel _).2 h)
  have hp : ncPrepare order m s = .error .valueError := by
    unfold ncPrepare
    dsimp only
    rw [if_neg he', hm, ncAliases_empty sn he' hsel hal hn hempty]
    rfl
  unfold ncStore
  rw [hp]

/-- **C51.**  A selected quantity with an empty name raises ValueError. -/
theorem netcdf_empty_name (order : SetOrder) (m : NCMon) (s : State) (hs : StateOk s)
    (he : Selected m.storeNames s "") : ncStore order m s = (m, .error .valueError) := by
  have he' := (mem_select (order := order) (names := m.storeNames) hs.1 "").1 he
  have hp : ncPrepare order m s = .error .valueError := by
    unfold ncPrepare
    dsimp only
    rw [if_pos he']
  unfold ncStore
  rw [hp]

end Verif
