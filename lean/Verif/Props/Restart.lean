import Verif.Spec.Restart
import Verif.Props.NetCDFExamples
/-!
# C52 – C54: RestartMonitor
-/

namespace Verif

/-! ## What is written -/

theorem RestartOk.stateOk {s : State} (h : RestartOk s) : StateOk s := ⟨h.1, fun n a ha => (h.2 n a ha).1⟩

theorem prepare_plain {order : SetOrder} {deltas : Bool} {s cs : State} {t : Int}
    (h : ncPrepare order (restartMon deltas) s = .ok (t, cs)) :
    "" ∉ Dict.keys s ∧ Dict.get? s "time" = some (.time t) ∧ cs = Dict.erase s "time" := by
  unfold ncPrepare at h
  dsimp only [restartMon, ncSelect, ncAliases] at h
  split at h
  · cases h
  · rename_i hne
    rw [Exc.ok_bind] at h
    cases ht : Dict.get? s "time" with
    | none => rw [ht] at h; cases h
    | some v =>
      rw [ht] at h
      dsimp only at h
      obtain ⟨t', ht', h⟩ := Exc.bind_ok_iff.1 h
      injection h with h
      injection h with e1 e2
      subst e1 e2
      refine ⟨hne, ?_, rfl⟩
      unfold State.time at ht'
      rw [ht] at ht'
      cases v with
      | time x =>
        injection ht' with ht'
        rw [ht']
      | da a => cases ht'

theorem singleton_times {ts : List Int} {t : Int} (h1 : ts.Pairwise (· < ·)) (h2 : ∀ x, x ∈ ts ↔ x = t) : ts = [t] := by
  cases ts with
  | nil => exact absurd ((h2 t).2 rfl) (by simp)
  | cons a ts =>
    have ha := (h2 a).1 List.mem_cons_self
    subst ha
    cases ts with
    | nil => rfl
    | cons b ts =>
      have hb := (h2 b).1 (List.mem_cons_of_mem _ List.mem_cons_self)
      rw [List.pairwise_cons] at h1
      have := h1.1 b List.mem_cons_self
      omega

/-- A store and a write on a new file that do not raise make a complete copy. -/
theorem restart_copy {order : SetOrder} {deltas : Bool} {s : State} (hs : RestartOk s) {m1 m2 : NCMon}
    (h1 : ncStore order (restartMon deltas) s = (m1, .ok ())) (h2 : ncWrite m1 = (m2, .ok ())) :
    CopyOf deltas (m2.file.getD NCFile.empty) s := by
  unfold ncStore at h1
  cases hp : ncPrepare order (restartMon deltas) s with
  | error e => rw [hp] at h1; cases h1
  | ok p =>
    obtain ⟨t, cs⟩ := p
    rw [hp] at h1
    dsimp only [restartMon] at h1
    injection h1 with h1
    subst h1
    obtain ⟨-, ht, rfl⟩ := prepare_plain hp
    have hso := hs.stateOk
    have hcs := ncPrepare_ok hso hp
    have hc := cacheOf_add cacheOf_nil t (Dict.erase s "time") hcs.1
    have hok := ncCacheAdd_states hc.nodup (fun _ _ hm => by cases hm) hcs
    have hget : ∀ q, q ≠ "time" → Dict.get? (Dict.erase s "time") q = Dict.get? s q :=
      fun q hq => Dict.get?_erase_ne _ (Ne.symm hq)
    have hnone : Dict.get? (Dict.erase s "time") "time" = none := Dict.get?_erase_self hs.1 _
    have hback : ∀ q v, Dict.get? (Dict.erase s "time") q = some v → q ≠ "time" ∧ Dict.get? s q = some v := by
      intro q v hv
      have hq : q ≠ "time" := by
        rintro rfl
        rw [hnone] at hv
        cases hv
      exact ⟨hq, (hget q hq) ▸ hv⟩
    have hlast : ∀ t' q, lastStored ([] ++ [(t, Dict.erase s "time")]) t' q =
        if t = t' then Dict.get? (Dict.erase s "time") q else none := by
      intro t' q
      rfl
    have hlast' : ∀ t' q v, lastStored ([] ++ [(t, Dict.erase s "time")]) t' q = some v →
        t' = t ∧ q ≠ "time" ∧ Dict.get? s q = some v := by
      intro t' q v hv
      rw [hlast] at hv
      split at hv
      · rename_i e
        exact ⟨e.symm, hback q v hv⟩
      · cases hv
    have hreg : RegularBatch NCFile.empty ([] ++ [(t, Dict.erase s "time")]) := by
      refine ⟨?_, ?_, ?_⟩
      · intro q t1 t2 a a' ha ha'
        have := (hlast' _ _ _ ha).2.2
        rw [(hlast' _ _ _ ha').2.2] at this
        injection this with this
        injection this with this
        subst this
        exact ⟨rfl, rfl, rfl⟩
      · intro q t1 a v _ hv
        cases hv
      · intro q t1 a ha
        exact hs.2 q a (hlast' _ _ _ ha).2.2
    obtain ⟨w1, w2, -, -⟩ := ncWrite_eq { restartMon deltas with cache := ncCacheAdd [] t (Dict.erase s "time") }
    have h2' : ncWrite { restartMon deltas with cache := ncCacheAdd [] t (Dict.erase s "time") } = (m2, .ok ()) := h2
    rw [h2'] at w1 w2
    dsimp only [restartMon, Option.getD_none] at w1 w2
    obtain ⟨ts, happ, us, ref, t1, -, t3, t4⟩ := writeFile_appends (us := 1000000) (deltas := deltas) hc hok
      (empty_valid _ _) hreg w1.symm
    have hval := writeFile_valid (us := 1000000) (deltas := deltas) (empty_valid _ _) hok
    rw [w2, Option.getD_some]
    generalize hg : (ncWriteFile 1000000 deltas (ncCacheAdd [] t (Dict.erase s "time")) NCFile.empty).1 = g at *
    have hts : ts = [t] := singleton_times happ.increasing (by
      intro x
      rw [happ.times x]
      simp [eq_comm])
    subst hts
    have hvals : ∀ q v, Dict.get? s q = some v → q ≠ "time" → ∃ a w, v = .da a ∧ g.vars.get? q = some w ∧
        w.dims = "time" :: a.dims ∧ w.attrs = a.attrs ∧ w.rows 0 = some a.arr := by
      intro q v hv hq
      have hl : lastStored ([] ++ [(t, Dict.erase s "time")]) t q = some v := by
        rw [hlast, if_pos rfl, hget q hq]
        exact hv
      obtain ⟨a, rfl, w, b1, b2, -, b4⟩ := happ.records 0 t rfl q v hl
      exact ⟨a, w, rfl, b1, b2, happ.newAttrs q w rfl b1 t a hl, b4⟩
    refine ⟨happ.ntime, ?_, hval.nodup, hvals, ?_⟩
    · intro q
      rw [happ.complete t (by simp) q, hlast, if_pos rfl, Dict.get?_isSome_iff, Dict.keys_erase, hs.1.mem_erase_iff,
        and_comm]
    · obtain ⟨n, n1, n2⟩ := t4 (by decide +kernel) 0 t rfl
      obtain ⟨e1, e2⟩ := t3 rfl
      rw [List.headD_cons] at e2
      rw [e1, e2] at t1 n2
      exact ⟨t, n, ht, n1, t1, n2⟩

/-- A storable state is stored. -/
theorem restart_succeeds (order : SetOrder) (deltas : Bool) {s : State} (hs : Storable s) :
    ∃ m1 m2, ncStore order (restartMon deltas) s = (m1, .ok ()) ∧ ncWrite m1 = (m2, .ok ()) := by
  obtain ⟨t, ht⟩ := hs.time
  have hp : ncPrepare order (restartMon deltas) s = .ok (t, Dict.erase s "time") := by
    unfold ncPrepare State.time
    dsimp only [restartMon, ncSelect, ncAliases]
    rw [if_neg hs.name, Exc.ok_bind, ht]
    rfl
  have hst : ncStore order (restartMon deltas) s =
      ({ restartMon deltas with cache := ncCacheAdd [] t (Dict.erase s "time") }, .ok ()) := by
    unfold ncStore
    rw [hp]
    rfl
  have hso := hs.ok.stateOk
  have hm : NewMonitor (restartMon deltas) := ⟨rfl, show (0 : Rat) < 1000000 by decide +kernel, empty_valid _ _⟩
  have haft : ncAfter order (restartMon deltas) [.store s] =
      ({ restartMon deltas with cache := ncCacheAdd [] t (Dict.erase s "time") }, [(t, Dict.erase s "time")]) := by
    unfold ncAfter
    show NCOp.run order (restartMon deltas, []) (.store s) = _
    unfold NCOp.run
    dsimp only
    simp only [hst, hp]
    rfl
  obtain ⟨L, hL⟩ := hs.arrays
  have hback : ∀ t' q v, lastStored [(t, Dict.erase s "time")] t' q = some v → q ≠ "time" ∧ Dict.get? s q = some v := by
    intro t' q v hv
    obtain ⟨p, hp, -, hm⟩ := lastStored_mem hv
    rw [List.mem_singleton] at hp
    subst hp
    have hn : (Dict.keys (Dict.erase s "time")).Nodup := by
      rw [Dict.keys_erase]
      exact hso.1.erase _
    have hv := Dict.get?_of_mem hn hm
    have hq : q ≠ "time" := by
      rintro rfl
      rw [Dict.get?_erase_self hso.1] at hv
      cases hv
    rw [Dict.get?_erase_ne _ (Ne.symm hq)] at hv
    exact ⟨hq, hv⟩
  have hw := netcdf_write_succeeds order (restartMon deltas) hm [.store s]
    (fun s' hs' => by
      simp only [List.mem_singleton, NCOp.store.injEq] at hs'
      subst hs'
      exact hso) L (by rw [haft]; simp)
    (by
      rw [haft]
      refine ⟨?_, ?_, ?_⟩
      · intro q t1 t2 a a' ha ha'
        have := (hback _ _ _ ha).2
        rw [(hback _ _ _ ha').2] at this
        injection this with this
        injection this with this
        subst this
        exact ⟨rfl, rfl, rfl⟩
      · intro q t1 a v _ hv
        cases hv
      · intro q t1 a ha
        exact hs.ok.2 q a (hback _ _ _ ha).2)
    (by
      rw [haft]
      refine ⟨?_, fun d n h => (by cases h), fun x h => (by cases h), fun q t a v _ h => (by cases h)⟩
      intro q t1 v hv
      obtain ⟨b1, b2⟩ := hback _ _ _ hv
      obtain ⟨a, rfl, c1, c2⟩ := hL q v b2 b1
      exact ⟨a, rfl, fun e => c1 (List.length_eq_zero_iff.1 e), c2⟩)
    (by
      rw [haft]
      rintro (⟨p, hp, p', hp', q, h1, h2⟩ | ⟨h, -⟩)
      · rw [List.mem_singleton] at hp hp'
        subst hp hp'
        exact h2 h1
      · exact h rfl)
  rw [haft] at hw
  refine ⟨_, _, hst, Prod.ext rfl hw⟩

/-! ## The operations of a store -/

/-- The cases of a store. -/
theorem restartStore_cases (order : SetOrder) (deltas : Bool) (d : Disk) {s : State} (hs : RestartOk s) :
    (∃ e, restartStore order deltas d s = ([], .error e) ∧ ((d .new).isSome → e = .ioError)) ∨
    (d .new = none ∧ ∃ e, restartStore order deltas d s = ([d.put .new (some .broken)], .error e)) ∨
    (d .new = none ∧ ∃ g, CopyOf deltas g s ∧ restartStore order deltas d s =
      ([d.put .new (some .broken), d.put .new (some (.whole deltas g))] ++
        swapFiles (d.put .new (some (.whole deltas g))), .ok ())) := by
  unfold restartStore
  cases hnew : d.isFile .new with
  | true =>
    rw [if_pos rfl]
    exact .inl ⟨_, rfl, fun _ => rfl⟩
  | false =>
    have hnone : d .new = none := by
      unfold Disk.isFile at hnew
      simpa using hnew
    rw [if_neg (by simp)]
    rcases h1 : ncStore order (restartMon deltas) s with ⟨m1, r1⟩
    cases r1 with
    | error e =>
      refine .inl ⟨e, rfl, fun h => ?_⟩
      rw [hnone] at h
      cases h
    | ok u =>
      dsimp only
      rcases h2 : ncWrite m1 with ⟨m2, r2⟩
      cases r2 with
      | error e => exact .inr (.inl ⟨hnone, e, rfl⟩)
      | ok u => exact .inr (.inr ⟨hnone, _, restart_copy hs h1 h2, rfl⟩)

theorem moved (d : Disk) : (lastDisk d (moveAside d)) .new = d .new ∧
    ((lastDisk d (moveAside d)) .old = d .main ∨ (lastDisk d (moveAside d)) .old = d .old) := by
  unfold moveAside
  split
  · exact ⟨rfl, .inl rfl⟩
  · exact ⟨rfl, .inr rfl⟩

/-- Every state of the disk while the files are swapped. -/
theorem mem_swapFiles {d d' : Disk} (h : d' ∈ swapFiles d) :
    (d' .old = d .main ∨ d' .old = d .old ∨ d' .old = none) ∧
    ((d .main ≠ none ∧ d' .main = none ∧ d' .old = d .main ∧ d' .new = d .new) ∨
    (d' .main = d .new ∧ d' .new = none)) := by
  obtain ⟨v1, v2⟩ := moved d
  unfold swapFiles at h
  dsimp only at h
  rw [List.append_assoc, List.mem_append, List.mem_append] at h
  rcases h with h | h | h
  · unfold moveAside at h
    split at h
    · rename_i hm
      rw [List.mem_singleton] at h
      subst h
      refine ⟨.inl rfl, .inl ⟨?_, rfl, rfl, rfl⟩⟩
      unfold Disk.isFile at hm
      intro e
      rw [e] at hm
      cases hm
    · cases h
  · rw [List.mem_singleton] at h
    subst h
    refine ⟨?_, .inr ⟨v1, rfl⟩⟩
    rcases v2 with v2 | v2
    · exact .inl v2
    · exact .inr (.inl v2)
  · unfold removeOld at h
    split at h
    · rw [List.mem_singleton] at h
      subst h
      exact ⟨.inr (.inr rfl), .inr ⟨v1, rfl⟩⟩
    · cases h

/-- The disk after all files are swapped. -/
theorem last_swapFiles (d d0 : Disk) (l : List Disk) :
    (lastDisk d0 (l ++ swapFiles d)) .main = d .new ∧ (lastDisk d0 (l ++ swapFiles d)) .new = none ∧
      (lastDisk d0 (l ++ swapFiles d)) .old = none := by
  unfold swapFiles moveAside removeOld lastDisk
  dsimp only
  by_cases hm : d.isFile .main = true
  · rw [if_pos hm]
    have hold : ((List.getLastD [d.rename .main .old] d).rename .new .main).isFile .old = true := hm
    rw [if_pos hold]
    simp only [List.getLastD_eq_getLast?, ← List.append_assoc, List.getLast?_concat, Option.getD_some]
    exact ⟨rfl, rfl, rfl⟩
  · rw [if_neg hm]
    by_cases ho : ((List.getLastD [] d).rename .new .main).isFile .old = true
    · rw [if_pos ho]
      simp only [List.getLastD_eq_getLast?, ← List.append_assoc, List.getLast?_concat, Option.getD_some]
      exact ⟨rfl, rfl, rfl⟩
    · rw [if_neg ho]
      simp only [List.getLastD_eq_getLast?, ← List.append_assoc, List.append_nil, List.getLast?_concat, Option.getD_some]
      refine ⟨rfl, rfl, ?_⟩
      unfold Disk.isFile at ho
      simpa using ho

theorem lastDisk_mem (d : Disk) (l : List Disk) : lastDisk d l = d ∨ lastDisk d l ∈ l := by
  unfold lastDisk
  cases h : l.getLast? with
  | none => left; rw [List.getLastD_eq_getLast?, h]; rfl
  | some x =>
    right
    rw [List.getLastD_eq_getLast?, h]
    exact List.mem_of_getLast? h

/-! ## C52 -/

/-- What the files hold after any history. -/
structure RInv (h : RHist) : Prop where
  whole : h.disk .main ≠ some .broken
  held : ∀ pre s post, h.stored = pre ++ (s, true) :: post →
    (∀ x, h.disk .main = some x → ∃ s' ∈ s :: post.map (·.1), x.CopyOf s') ∧
    (h.disk .main = none → ∃ x, h.disk .old = some x ∧ ∃ s' ∈ s :: post.map (·.1), x.CopyOf s')

/-- The invariant for a disk after some of the operations of a store. -/
theorem store_point_inv {order : SetOrder} {h : RHist} (hi : RInv h) {deltas : Bool} {s : State} (hs : RestartOk s)
    {d : Disk} (hd : d = h.disk ∨ d ∈ (restartStore order deltas h.disk s).1) :
    RInv ⟨d, h.stored ++ [(s, false)]⟩ := by
  have hold : ∀ d : Disk, d .main = h.disk .main → d .old = h.disk .old → RInv ⟨d, h.stored ++ [(s, false)]⟩ := by
    intro d e1 e2
    refine ⟨by rw [show (RHist.mk d (h.stored ++ [(s, false)])).disk .main = h.disk .main from e1]; exact hi.whole, ?_⟩
    intro pre s0 post hsp
    dsimp only at hsp ⊢
    obtain ⟨post', rfl, hsp'⟩ : ∃ post', post = post' ++ [(s, false)] ∧ h.stored = pre ++ (s0, true) :: post' := by
      rcases List.eq_nil_or_concat post with rfl | ⟨post', b, rfl⟩
      · have := List.append_inj_right' hsp rfl
        simp at this
      · rw [List.concat_eq_append, ← List.cons_append, ← List.append_assoc] at hsp
        have h1 := List.append_inj_left' hsp rfl
        have h2 := List.append_inj_right' hsp rfl
        injection h2 with h2
        subst h2
        exact ⟨post', by rw [List.concat_eq_append], h1⟩
    obtain ⟨i1, i2⟩ := hi.held pre s0 post' hsp'
    rw [e1, e2]
    have hsub : ∀ s', s' ∈ s0 :: post'.map (·.1) → s' ∈ s0 :: (post' ++ [(s, false)]).map (·.1) := by
      intro s' hm
      rw [List.map_append, ← List.cons_append]
      exact List.mem_append_left _ hm
    refine ⟨fun x hx => ?_, fun hn => ?_⟩
    · obtain ⟨s', hm, hc⟩ := i1 x hx
      exact ⟨s', hsub s' hm, hc⟩
    · obtain ⟨x, hx, s', hm, hc⟩ := i2 hn
      exact ⟨x, hx, s', hsub s' hm, hc⟩
  have hput : ∀ x, RInv ⟨h.disk.put .new x, h.stored ++ [(s, false)]⟩ := fun x => hold _ rfl rfl
  rcases hd with rfl | hd
  · exact hold _ rfl rfl
  · rcases restartStore_cases order deltas h.disk hs with ⟨e, hr, -⟩ | ⟨-, e, hr⟩ | ⟨-, g, hg, hr⟩
    · rw [hr] at hd
      cases hd
    · rw [hr, List.mem_singleton] at hd
      rw [hd]
      exact hput _
    · rw [hr, List.mem_append] at hd
      rcases hd with hd | hd
      · simp only [List.mem_cons, List.not_mem_nil, or_false] at hd
        rcases hd with rfl | rfl
        · exact hput _
        · exact hput _
      · rcases (mem_swapFiles hd).2 with ⟨m1, m2, m3, -⟩ | ⟨m1, -⟩
        · -- the old file is moved aside
          have hp := hput (some (.whole deltas g))
          refine ⟨by dsimp only; rw [m2]; simp, ?_⟩
          intro pre s0 post hsp
          obtain ⟨i1, -⟩ := hp.held pre s0 post hsp
          dsimp only at i1 ⊢
          rw [m2, m3]
          refine ⟨fun x hx => (by cases hx), fun _ => ?_⟩
          obtain ⟨x, hx⟩ := Option.ne_none_iff_exists'.1 m1
          exact ⟨x, hx, i1 x hx⟩
        · -- the new file is in place
          have e : d .main = some (.whole deltas g) := m1
          refine ⟨by dsimp only; rw [e]; simp, ?_⟩
          intro pre s0 post hsp
          dsimp only at hsp ⊢
          rw [e]
          refine ⟨fun x hx => ?_, fun hn => (by cases hn)⟩
          injection hx with hx
          subst hx
          refine ⟨s, ?_, deltas, g, rfl, hg⟩
          rcases List.eq_nil_or_concat post with rfl | ⟨post', b, rfl⟩
          · have := List.append_inj_right' hsp rfl
            simp at this
          · rw [List.concat_eq_append, ← List.cons_append, ← List.append_assoc] at hsp
            have h2 := List.append_inj_right' hsp rfl
            injection h2 with h2
            subst h2
            simp

theorem store_return_inv {order : SetOrder} {h : RHist} (hi : RInv h) {deltas : Bool} {s : State} (hs : RestartOk s) :
    RInv (REvent.run order h (.store deltas s none)) := by
  unfold REvent.run
  dsimp only
  cases hr : (restartStore order deltas h.disk s).2 with
  | error e => exact store_point_inv hi hs (lastDisk_mem _ _)
  | ok u =>
    rcases restartStore_cases order deltas h.disk hs with ⟨e, h1, -⟩ | ⟨-, e, h1⟩ | ⟨-, g, hg, h1⟩
    · rw [h1] at hr
      cases hr
    · rw [h1] at hr
      cases hr
    · rw [h1]
      obtain ⟨l1, l2, l3⟩ := last_swapFiles (h.disk.put .new (some (.whole deltas g))) h.disk
        [h.disk.put .new (some .broken), h.disk.put .new (some (.whole deltas g))]
      refine ⟨?_, ?_⟩
      · dsimp only
        rw [l1]
        show some (RFile.whole deltas g) ≠ _
        simp
      · intro pre s0 post hsp
        dsimp only at hsp ⊢
        rw [l1]
        refine ⟨fun x hx => ?_, fun hn => (by cases hn)⟩
        have hx' : some (RFile.whole deltas g) = some x := hx
        injection hx' with hx'
        subst hx'
        refine ⟨s, ?_, deltas, g, rfl, hg⟩
        rcases List.eq_nil_or_concat post with rfl | ⟨post', b, rfl⟩
        · have := List.append_inj_right' hsp rfl
          injection this with this
          injection this with this
          subst this
          exact List.mem_cons_self
        · rw [List.concat_eq_append, ← List.cons_append, ← List.append_assoc] at hsp
          have h2 := List.append_inj_right' hsp rfl
          injection h2 with h2
          subst h2
          simp

/-- The states stored in a history. -/
def EventsOk (evs : List REvent) : Prop := ∀ deltas s stop, .store deltas s stop ∈ evs → RestartOk s

theorem restart_inv (order : SetOrder) (d : Disk) (hd : d .main ≠ some .broken) (hold : d .old ≠ some .broken)
    (evs : List REvent) (h : EventsOk evs) :
    RInv (restartAfter order d evs) ∧ (restartAfter order d evs).disk .old ≠ some .broken := by
  unfold restartAfter
  have gen : ∀ (evs : List REvent) (h0 : RHist), EventsOk evs → RInv h0 ∧ h0.disk .old ≠ some .broken →
      RInv (evs.foldl (REvent.run order) h0) ∧ (evs.foldl (REvent.run order) h0).disk .old ≠ some .broken := by
    intro evs
    induction evs with
    | nil => exact fun _ _ h => h
    | cons ev evs ih =>
      intro h0 hok hi
      refine ih _ (fun dl s st hm => hok dl s st (List.mem_cons_of_mem _ hm)) ?_
      have holdP : ∀ deltas s, RestartOk s → ∀ d' : Disk, d' = h0.disk ∨ d' ∈ (restartStore order deltas h0.disk s).1 →
          d' .old ≠ some .broken := by
        intro deltas s hs d' hd'
        rcases hd' with rfl | hd'
        · exact hi.2
        · rcases restartStore_cases order deltas h0.disk hs with ⟨e, hr, -⟩ | ⟨-, e, hr⟩ | ⟨-, g, hg, hr⟩
          · rw [hr] at hd'
            cases hd'
          · rw [hr, List.mem_singleton] at hd'
            rw [hd']
            exact hi.2
          · rw [hr, List.mem_append] at hd'
            rcases hd' with hd' | hd'
            · simp only [List.mem_cons, List.not_mem_nil, or_false] at hd'
              rcases hd' with rfl | rfl <;> exact hi.2
            · rcases (mem_swapFiles hd').1 with e | e | e
              · rw [e]
                exact hi.1.whole
              · rw [e]
                exact hi.2
              · rw [e]
                simp
      cases ev with
      | store deltas s stop =>
        have hs := hok deltas s stop List.mem_cons_self
        cases stop with
        | none => exact ⟨store_return_inv hi.1 hs, holdP deltas s hs _ (lastDisk_mem _ _)⟩
        | some k =>
          have hm : lastDisk h0.disk ((restartStore order deltas h0.disk s).1.take k) = h0.disk ∨
              lastDisk h0.disk ((restartStore order deltas h0.disk s).1.take k) ∈ (restartStore order deltas h0.disk s).1 := by
            rcases lastDisk_mem h0.disk ((restartStore order deltas h0.disk s).1.take k) with h | h
            · exact .inl h
            · exact .inr (List.mem_of_mem_take h)
          exact ⟨store_point_inv hi.1 hs hm, holdP deltas s hs _ hm⟩
      | removeNew => exact ⟨⟨hi.1.whole, hi.1.held⟩, hi.2⟩
      | restoreOld =>
        unfold REvent.run
        dsimp only
        split
        · rename_i hc
          have hmain : h0.disk .main = none := by
            have := hc.2
            unfold Disk.isFile at this
            simpa using this
          refine ⟨⟨hi.2, ?_⟩, ?_⟩
          · intro pre s post hsp
            obtain ⟨-, i2⟩ := hi.1.held pre s post hsp
            obtain ⟨x, hx, hx'⟩ := i2 hmain
            refine ⟨fun y hy => ?_, fun hn => ?_⟩
            · have hy' : h0.disk .old = some y := hy
              rw [hx] at hy'
              injection hy' with hy'
              subst hy'
              exact hx'
            · have hn' : h0.disk .old = none := hn
              rw [hx] at hn'
              cases hn'
          · show (none : Option RFile) ≠ _
            simp
        · exact hi
  refine gen evs ⟨d, []⟩ h ⟨⟨hd, ?_⟩, hold⟩
  intro pre s post hsp
  simp at hsp

/-- **C52.**  After any history of stores, in each of which the process may stop after any
operation on the files (so at every point), and of removals of `<f>.new` and moves of
`<f>.old` back by hand: `<f>` is not a partly written file, and for every store that
returned, `<f>` or, if it does not exist, `<f>.old` is a complete copy of that state or of
one given to `store` later. -/
theorem restart_crash_safe (order : SetOrder) (d : Disk) (hd : d .main ≠ some .broken) (hold : d .old ≠ some .broken)
    (evs : List REvent) (h : EventsOk evs) :
    (restartAfter order d evs).disk .main ≠ some .broken ∧
    ∀ pre s post, (restartAfter order d evs).stored = pre ++ (s, true) :: post →
      ∃ x, ((restartAfter order d evs).disk .main = some x ∨
          (restartAfter order d evs).disk .main = none ∧ (restartAfter order d evs).disk .old = some x) ∧
        ∃ s' ∈ s :: post.map (·.1), x.CopyOf s' := by
  obtain ⟨hi, -⟩ := restart_inv order d hd hold evs h
  refine ⟨hi.whole, fun pre s post hsp => ?_⟩
  obtain ⟨i1, i2⟩ := hi.held pre s post hsp
  cases hm : (restartAfter order d evs).disk .main with
  | some x => exact ⟨x, .inl rfl, i1 x hm⟩
  | none =>
    obtain ⟨x, hx, hx'⟩ := i2 hm
    exact ⟨x, .inr ⟨rfl, hx⟩, hx'⟩

/-- The returned store leaves only the file `<f>`. -/
theorem store_leaves {order : SetOrder} {deltas : Bool} {d : Disk} {s : State} (hs : RestartOk s)
    (h : (restartStore order deltas d s).2 = .ok ()) :
    ∃ g, CopyOf deltas g s ∧ lastDisk d (restartStore order deltas d s).1 .main = some (.whole deltas g) ∧
      lastDisk d (restartStore order deltas d s).1 .new = none ∧ lastDisk d (restartStore order deltas d s).1 .old = none := by
  rcases restartStore_cases order deltas d hs with ⟨e, h1, -⟩ | ⟨-, e, h1⟩ | ⟨-, g, hg, h1⟩
  · rw [h1] at h
    cases h
  · rw [h1] at h
    cases h
  · rw [h1]
    obtain ⟨l1, l2, l3⟩ := last_swapFiles (d.put .new (some (.whole deltas g))) d
      [d.put .new (some .broken), d.put .new (some (.whole deltas g))]
    exact ⟨g, hg, l1, l2, l3⟩

/-! ## C53 -/

theorem timeUnits_eq (u : String) : timeUnits.get? u = nanoseconds u := by
  unfold nanoseconds
  split <;> try decide +kernel
  rw [Dict.get?_eq_none_iff]
  simp only [timeUnits, Dict.keys, List.map_cons, List.map_nil, List.mem_cons, List.not_mem_nil, or_false, not_or]
  refine ⟨?_, ?_, ?_, ?_, ?_, ?_, ?_⟩ <;> assumption

theorem nanoseconds_none {u : String}
    (h : u ∉ ["days", "hours", "minutes", "seconds", "milliseconds", "microseconds", "nanoseconds"]) :
    nanoseconds u = none := by
  rw [← timeUnits_eq, Dict.get?_eq_none_iff]
  exact h

theorem load_decoded {d : Disk} {g : NCFile} {s : State} (hc : CopyOf false g s)
    (hrange : ∀ t, Dict.get? s "time" = some (.time t) → t.natAbs ≤ 9223372036854775)
    (hdisj : ∀ q q' a, q ∈ Dict.keys s → q ≠ "time" → Dict.get? s q' = some (.da a) → q ∉ a.dims)
    (hd : d .main = some (.whole false g)) : ∃ st, restartLoad d = .ok st ∧ Dict.get? st "time" = Dict.get? s "time" ∧
      (∀ q, q ∉ Dict.keys s → Dict.get? st q = none) ∧
      ∀ q a, q ≠ "time" → Dict.get? s q = some (.da a) → ∃ b, Dict.get? st q = some (.da b) ∧ DecodedAs a b := by
  have hvar : ∀ n w, (n, w) ∈ g.vars → ∃ a, Dict.get? s n = some (.da a) ∧ n ≠ "time" ∧ w.dims = "time" :: a.dims ∧
      w.attrs = a.attrs ∧ w.rows 0 = some a.arr := by
    intro n w hm
    have hg := Dict.get?_of_mem hc.nodup hm
    obtain ⟨h1, h2⟩ := (hc.names n).1 (Dict.mem_keys_of_mem hm)
    obtain ⟨v, hv⟩ := Dict.get?_of_mem_keys h1
    obtain ⟨a, w', rfl, b1, b2, b3, b4⟩ := hc.vals n v hv h2
    rw [hg] at b1
    injection b1 with b1
    subst b1
    exact ⟨a, hv, h2, b2, b3, b4⟩
  have hdims : ∀ n w n' w', (n, w) ∈ g.vars → (n', w') ∈ g.vars → n ∉ w'.dims := by
    intro n w n' w' hm hm' hin
    obtain ⟨a, h1, h2, -⟩ := hvar n w hm
    obtain ⟨a', h1', h2', e, -⟩ := hvar n' w' hm'
    rw [e, List.mem_cons] at hin
    rcases hin with hin | hin
    · exact h2 hin
    · exact hdisj n n' a' (Dict.mem_keys_of_get? h1) h2 h1' hin
  obtain ⟨t, n, ht, tn, tv, tnum⟩ := hc.time
  have hn : n = 0 := tnum.1 0 (by simp)
  subst hn
  have htime : loadTime false g = .ok t := by
    unfold loadTime
    rw [if_neg (by simp), tv, tn]
    have h0 : truncRat (((0 : Int) : Rat) * 1000000) = 0 := by decide +kernel
    dsimp only
    rw [h0]
    simp only [Bool.false_eq_true, if_false, Int.add_zero]
    rw [if_pos (hrange t ht)]
  have hany : ¬ (g.vars.any fun nv => decide (nv.1 ∈ nv.2.dims)) = true := by
    rw [List.any_eq_true]
    rintro ⟨⟨n, w⟩, hm, hin⟩
    exact hdims n w n w hm hm (by simpa using hin)
  have hfilter : (g.vars.filter fun nv => decide (nv.1 ∉ usedDims g)) = g.vars := by
    rw [List.filter_eq_self]
    rintro ⟨n, w⟩ hm
    rw [decide_eq_true_eq]
    intro hin
    unfold usedDims at hin
    rw [List.mem_flatMap] at hin
    obtain ⟨⟨n', w'⟩, hm', hin⟩ := hin
    exact hdims n w n' w' hm hm' hin
  unfold restartLoad
  rw [hd]
  dsimp only
  rw [if_neg hany, htime, Exc.ok_bind, hfilter]
  refine ⟨_, rfl, ?_, fun q hq => ?_, fun q a hqt hq => ?_⟩
  · rw [Dict.get?_set_self, ht]
  · have hqt : q ≠ "time" := fun e => hq (e ▸ Dict.mem_keys_of_get? ht)
    rw [Dict.get?_set_ne _ _ (Ne.symm hqt), get?_map_key (fun _ v => Val.da (loadVar g v)) g.vars q, Option.map_eq_none_iff,
      Dict.get?_eq_none_iff]
    exact fun hk => hq ((hc.names q).1 hk).1
  · have hk := (hc.names q).2 ⟨Dict.mem_keys_of_get? hq, hqt⟩
    obtain ⟨w, hw⟩ := Dict.get?_of_mem_keys hk
    obtain ⟨a', h1, h2, h3, h4, h5⟩ := hvar q w (Dict.mem_of_get? hw)
    rw [hq] at h1
    injection h1 with h1
    injection h1 with h1
    subst h1
    refine ⟨loadVar g w, ?_, ?_⟩
    · rw [Dict.get?_set_ne _ _ (Ne.symm hqt), get?_map_key (fun _ v => Val.da (loadVar g v)) g.vars q, hw, Option.map_some]
    · unfold DecodedAs loadVar
      rw [h3, h4, h5]
      cases hu : Dict.get? a.attrs "units" with
      | none => rfl
      | some u =>
        rw [Option.bind_some, Option.bind_some, timeUnits_eq]
        cases nanoseconds u with
        | none => rfl
        | some k =>
          exact ⟨rfl, rfl, fun i => Rat.mul_comm _ _, fun n hn => Dict.get?_erase_ne _ (Ne.symm hn),
            fun hnd => Dict.get?_erase_self hnd _⟩

theorem load_copy {d : Disk} {g : NCFile} {s : State} (hc : CopyOf false g s) (hl : Loadable s)
    (hd : d .main = some (.whole false g)) : ∃ st, restartLoad d = .ok st ∧ ∀ q, Dict.get? st q = Dict.get? s q := by
  obtain ⟨st, h1, h2, h3, h4⟩ := load_decoded hc hl.range hl.names hd
  refine ⟨st, h1, fun q => ?_⟩
  by_cases hqt : q = "time"
  · rw [hqt, h2]
  · by_cases hk : q ∈ Dict.keys s
    · obtain ⟨v, hv⟩ := Dict.get?_of_mem_keys hk
      obtain ⟨a, w', rfl, -⟩ := hc.vals q v hv hqt
      obtain ⟨b, hb, hdec⟩ := h4 q a hqt hv
      rw [hb, hv]
      unfold DecodedAs at hdec
      cases hu : Dict.get? a.attrs "units" with
      | none =>
        rw [hu, Option.bind_none] at hdec
        rw [hdec]
      | some u =>
        rw [hu, Option.bind_some, nanoseconds_none (hl.units q a u hv hu)] at hdec
        rw [hdec]
    · rw [h3 q hk, (Dict.get?_eq_none_iff _ _).2 hk]

/-- **C53.**  After a store of a state with a date that returned, whatever files existed
before: `load` returns exactly the quantities (values, dims and attributes) and the time of
that state, and no other file is left.  Assumes that no quantity is named like a dimension
or has one of the units of time xarray decodes, and that the date is in the range of 64 bit
nanoseconds; without these it is false (`load_named_like_dim`, `load_loses_quantity`,
`load_decodes_units`, `load_out_of_range`), as it is for timedeltas (`load_timedelta`). -/
theorem restart_load_partial (order : SetOrder) (d : Disk) (s : State) (hs : RestartOk s) (hl : Loadable s)
    (h : (restartStore order false d s).2 = .ok ()) :
    (∃ st, restartLoad (lastDisk d (restartStore order false d s).1) = .ok st ∧ ∀ q, Dict.get? st q = Dict.get? s q) ∧
    lastDisk d (restartStore order false d s).1 .new = none ∧ lastDisk d (restartStore order false d s).1 .old = none := by
  obtain ⟨g, hg, h1, h2, h3⟩ := store_leaves hs h
  exact ⟨load_copy hg hl h1, h2, h3⟩

/-- **C53 fails** for durations: whatever units of time a quantity has that xarray decodes, it
is loaded as a number of nanoseconds, without units.  All other quantities are loaded as they
were stored. -/
theorem load_decodes_times (order : SetOrder) (d : Disk) (s : State) (hs : RestartOk s)
    (hrange : ∀ t, Dict.get? s "time" = some (.time t) → t.natAbs ≤ 9223372036854775)
    (hdisj : ∀ q q' a, q ∈ Dict.keys s → q ≠ "time" → Dict.get? s q' = some (.da a) → q ∉ a.dims)
    (h : (restartStore order false d s).2 = .ok ()) :
    ∃ st, restartLoad (lastDisk d (restartStore order false d s).1) = .ok st ∧
      Dict.get? st "time" = Dict.get? s "time" ∧ (∀ q, q ∉ Dict.keys s → Dict.get? st q = none) ∧
      ∀ q a, q ≠ "time" → Dict.get? s q = some (.da a) → ∃ b, Dict.get? st q = some (.da b) ∧ DecodedAs a b := by
  obtain ⟨g, hg, h1, -, -⟩ := store_leaves hs h
  exact load_decoded hg hrange hdisj h1

/-- **C53 fails** for every state with a timedelta as time: `load` raises. -/
theorem load_timedelta (order : SetOrder) (d : Disk) (s : State) (hs : RestartOk s)
    (h : (restartStore order true d s).2 = .ok ()) :
    ∀ st, restartLoad (lastDisk d (restartStore order true d s).1) ≠ .ok st := by
  obtain ⟨g, hg, h1, -, -⟩ := store_leaves hs h
  intro st
  unfold restartLoad
  rw [h1]
  dsimp only
  split
  · simp
  · unfold loadTime
    rw [if_pos rfl]
    intro h
    cases h

/-- **C53 fails** for every date outside of the years 1678 to 2262. -/
theorem load_out_of_range (order : SetOrder) (d : Disk) (s : State) (hs : RestartOk s) (t : Int)
    (ht : Dict.get? s "time" = some (.time t)) (hr : 9223372036854775 < t.natAbs)
    (h : (restartStore order false d s).2 = .ok ()) :
    ∀ st, restartLoad (lastDisk d (restartStore order false d s).1) ≠ .ok st := by
  obtain ⟨g, hg, h1, -, -⟩ := store_leaves hs h
  intro st
  unfold restartLoad
  rw [h1]
  dsimp only
  split
  · simp
  · obtain ⟨t', n, ht', tn, tv, tnum⟩ := hg.time
    rw [ht] at ht'
    injection ht' with ht'
    injection ht' with ht'
    subst ht'
    have hn : n = 0 := tnum.1 0 (by simp)
    subst hn
    unfold loadTime
    rw [if_neg (by simp), tv, tn]
    have h0 : truncRat (((0 : Int) : Rat) * 1000000) = 0 := by decide +kernel
    dsimp only
    rw [h0]
    simp only [Bool.false_eq_true, if_false, Int.add_zero]
    rw [if_neg (by omega)]
    intro h
    cases h

/-- **C53 fails** for every state with a quantity named like one of its dims: `load`
raises. -/
theorem load_named_like_dim (order : SetOrder) (deltas : Bool) (d : Disk) (s : State) (hs : RestartOk s) (q : String)
    (a : DataArray) (hq : Dict.get? s q = some (.da a)) (hqt : q ≠ "time") (hin : q ∈ a.dims)
    (h : (restartStore order deltas d s).2 = .ok ()) :
    restartLoad (lastDisk d (restartStore order deltas d s).1) = .error .valueError := by
  obtain ⟨g, hg, h1, -, -⟩ := store_leaves hs h
  unfold restartLoad
  rw [h1]
  dsimp only
  obtain ⟨a', w, e, b1, b2, -, -⟩ := hg.vals q _ hq hqt
  injection e with e
  subst e
  rw [if_pos]
  rw [List.any_eq_true]
  exact ⟨(q, w), Dict.mem_of_get? b1, by rw [decide_eq_true_eq, b2]; exact List.mem_cons_of_mem _ hin⟩

/-- **C53 fails** for every state with a quantity named like a dim of another quantity:
what is loaded does not have it. -/
theorem load_loses_quantity (order : SetOrder) (deltas : Bool) (d : Disk) (s : State) (hs : RestartOk s) (q q' : String)
    (a : DataArray) (hq' : Dict.get? s q' = some (.da a)) (hq't : q' ≠ "time") (hqt : q ≠ "time") (hin : q ∈ a.dims)
    (h : (restartStore order deltas d s).2 = .ok ()) (st : State)
    (hst : restartLoad (lastDisk d (restartStore order deltas d s).1) = .ok st) : Dict.get? st q = none := by
  obtain ⟨g, hg, h1, -, -⟩ := store_leaves hs h
  unfold restartLoad at hst
  rw [h1] at hst
  dsimp only at hst
  split at hst
  · cases hst
  · obtain ⟨t, -, hst⟩ := Exc.bind_ok_iff.1 hst
    injection hst with hst
    subst hst
    rw [Dict.get?_set_ne _ _ (Ne.symm hqt), get?_map_key (fun _ v => Val.da (loadVar g v)), Option.map_eq_none_iff,
      Dict.get?_eq_none_iff]
    intro hk
    unfold Dict.keys at hk
    rw [List.mem_map] at hk
    obtain ⟨⟨n, w⟩, hm, e⟩ := hk
    dsimp only at e
    subst e
    rw [List.mem_filter, decide_eq_true_eq] at hm
    apply hm.2
    obtain ⟨a', w', e, b1, b2, -, -⟩ := hg.vals q' _ hq' hq't
    injection e with e
    subst e
    unfold usedDims
    rw [List.mem_flatMap]
    exact ⟨(q', w'), Dict.mem_of_get? b1, by rw [b2]; exact List.mem_cons_of_mem _ hin⟩

/-! ## C54 -/

/-- A store of a storable state returns if there is no file `<f>.new`. -/
theorem store_returns (order : SetOrder) (deltas : Bool) (d : Disk) (s : State) (hs : Storable s) (hd : d .new = none) :
    (restartStore order deltas d s).2 = .ok () := by
  obtain ⟨m1, m2, h1, h2⟩ := restart_succeeds order deltas hs
  unfold restartStore
  have hn : d.isFile .new = false := by
    unfold Disk.isFile
    rw [hd]
    rfl
  rw [hn, if_neg (by simp), h1]
  dsimp only
  rw [h2]

/-- **C54.**  After any history, if `<f>.new` does not exist (so the process did not stop,
or it stopped before the new file was created or after it was renamed): further states can
be stored, and what is stored can be loaded.  If `<f>.new` exists this is false
(`restart_blocked`). -/
theorem restart_continues_partial (order : SetOrder) (d : Disk) (evs : List REvent)
    (hnew : (restartAfter order d evs).disk .new = none) (s : State) (hs : Storable s) :
    (restartStore order false (restartAfter order d evs).disk s).2 = .ok () ∧
    (Loadable s → ∃ st, restartLoad (lastDisk (restartAfter order d evs).disk
        (restartStore order false (restartAfter order d evs).disk s).1) = .ok st ∧ ∀ q, Dict.get? st q = Dict.get? s q) := by
  have h := store_returns order false _ s hs hnew
  exact ⟨h, fun hl => (restart_load_partial order _ s hs.ok hl h).1⟩

/-- **C54.**  A stop at the start or at the end of a store leaves no file `<f>.new`, and
the old or the new state in `<f>`. -/
theorem restart_stop_harmless_partial (order : SetOrder) (deltas : Bool) (d : Disk) (hd : d .new = none) (s : State)
    (hs : Storable s) (k : Nat) (hk : k = 0 ∨ k ≥ 3 ∧ d .main = none ∨ k ≥ 4) :
    lastDisk d ((restartStore order deltas d s).1.take k) .new = none ∧
    (lastDisk d ((restartStore order deltas d s).1.take k) .main = d .main ∨
      ∃ x, lastDisk d ((restartStore order deltas d s).1.take k) .main = some x ∧ x.CopyOf s) := by
  rcases hk with rfl | hk
  · exact ⟨hd, .inl rfl⟩
  · have h := store_returns order deltas d s hs hd
    rcases restartStore_cases order deltas d hs.ok with ⟨e, h1, -⟩ | ⟨-, e, h1⟩ | ⟨-, g, hg, h1⟩
    · rw [h1] at h
      cases h
    · rw [h1] at h
      cases h
    · rw [h1]
      suffices hsuf : ∀ d' ∈ (([d.put .new (some .broken), d.put .new (some (.whole deltas g))] ++
          swapFiles (d.put .new (some (.whole deltas g)))).take k).getLast?,
          d' .new = none ∧ d' .main = some (.whole deltas g) by
        unfold lastDisk
        rw [List.getLastD_eq_getLast?]
        cases hl : (([d.put .new (some .broken), d.put .new (some (.whole deltas g))] ++
          swapFiles (d.put .new (some (.whole deltas g)))).take k).getLast? with
        | none =>
          rw [List.getLast?_eq_none_iff] at hl
          have : k = 0 := by
            cases k with
            | zero => rfl
            | succ k => simp at hl
          omega
        | some d' =>
          obtain ⟨e1, e2⟩ := hsuf d' (by rw [hl]; rfl)
          rw [Option.getD_some]
          exact ⟨e1, .inr ⟨_, e2, deltas, g, rfl, hg⟩⟩
      intro d' hd'
      unfold swapFiles at hd'
      dsimp only at hd'
      obtain ⟨v1, -⟩ := moved (d.put .new (some (.whole deltas g)))
      have hgood : ∀ x, x = (lastDisk (d.put .new (some (.whole deltas g)))
            (moveAside (d.put .new (some (.whole deltas g))))).rename .new .main ∨
          x ∈ removeOld ((lastDisk (d.put .new (some (.whole deltas g)))
            (moveAside (d.put .new (some (.whole deltas g))))).rename .new .main) →
          x .new = none ∧ x .main = some (.whole deltas g) := by
        rintro x (rfl | hx)
        · exact ⟨rfl, v1⟩
        · unfold removeOld at hx
          split at hx
          · rw [List.mem_singleton] at hx
            subst hx
            exact ⟨rfl, v1⟩
          · cases hx
      generalize hr : (lastDisk (d.put .new (some (.whole deltas g)))
            (moveAside (d.put .new (some (.whole deltas g))))).rename .new .main = r at *
      generalize hrm : removeOld r = l at *
      have key : ∀ (pre : List Disk) (k : Nat), pre.length < k → ∀ x, x ∈ ((pre ++ ([r] ++ l)).take k).getLast? → x = r ∨ x ∈ l := by
        intro pre k hk x hx
        have hsplit : (pre ++ ([r] ++ l)).take k = pre ++ ([r] ++ l).take (k - pre.length) := by
          rw [List.take_append, List.take_of_length_le (by omega)]
        rw [hsplit] at hx
        obtain ⟨j, hj⟩ : ∃ j, k - pre.length = j + 1 := ⟨k - pre.length - 1, by omega⟩
        rw [hj, List.singleton_append, List.take_succ_cons] at hx
        rw [List.getLast?_append] at hx
        have hx' : x ∈ (r :: l.take j).getLast? := by
          rw [List.getLast?_cons] at hx ⊢
          simpa using hx
        have := List.mem_of_getLast? hx'
        rcases List.mem_cons.1 this with h | h
        · exact .inl h
        · exact .inr (List.mem_of_mem_take h)
      refine hgood d' ?_
      have hlen : ([d.put .new (some .broken), d.put .new (some (.whole deltas g))] ++
          moveAside (d.put .new (some (.whole deltas g)))).length < k := by
        unfold moveAside
        rcases hk with ⟨hk, hm⟩ | hk
        · have hf : (d.put .new (some (.whole deltas g))).isFile .main = false := by
            show (d .main).isSome = false
            rw [hm]
            rfl
          rw [hf, if_neg (by simp)]
          simp
          omega
        · split <;> simp <;> omega
      refine key _ k hlen d' ?_
      simp only [List.append_assoc] at hd' ⊢
      exact hd'

/-- **C54 fails**: after a stop that leaves `<f>.new`, every sequence of stores raises
IOError and changes nothing. -/
theorem restart_blocked (order : SetOrder) (d : Disk) (hd : (d .new).isSome) (ss : List (Bool × State)) :
    (restartAfter order d (ss.map fun x => .store x.1 x.2 none)).disk = d ∧
    (restartAfter order d (ss.map fun x => .store x.1 x.2 none)).stored = ss.map fun x => (x.2, false) := by
  have hst : ∀ deltas s, restartStore order deltas d s = ([], .error .ioError) := by
    intro deltas s
    have hf : d.isFile .new = true := hd
    unfold restartStore
    rw [hf, if_pos rfl]
  unfold restartAfter
  have gen : ∀ (ss : List (Bool × State)) (l : List (State × Bool)),
      (ss.map fun x => REvent.store x.1 x.2 none).foldl (REvent.run order) ⟨d, l⟩ = ⟨d, l ++ ss.map fun x => (x.2, false)⟩ := by
    intro ss
    induction ss with
    | nil => intro l; simp
    | cons x ss ih =>
      intro l
      rw [List.map_cons, List.foldl_cons]
      have hrun : REvent.run order ⟨d, l⟩ (.store x.1 x.2 none) = ⟨d, l ++ [(x.2, false)]⟩ := by
        unfold REvent.run
        dsimp only
        rw [hst]
        rfl
      rw [hrun, ih, List.map_cons, List.append_assoc]
      rfl
  rw [gen]
  exact ⟨rfl, rfl⟩

/-- **C54 fails** for a stop after each of the first operations of every store: the file
`<f>.new` is left, and after the third `<f>` does not exist, so nothing can be loaded. -/
theorem restart_stop_blocks (order : SetOrder) (deltas : Bool) (d : Disk) (hd : d .new = none) (hm : (d .main).isSome)
    (s : State) (hs : Storable s) :
    (∀ k, 1 ≤ k → k ≤ 3 → (lastDisk d ((restartStore order deltas d s).1.take k) .new).isSome) ∧
    restartLoad (lastDisk d ((restartStore order deltas d s).1.take 3)) = .error .ioError := by
  have h := store_returns order deltas d s hs hd
  rcases restartStore_cases order deltas d hs.ok with ⟨e, h1, -⟩ | ⟨-, e, h1⟩ | ⟨-, g, hg, h1⟩
  · rw [h1] at h
    cases h
  · rw [h1] at h
    cases h
  · rw [h1]
    have hma : moveAside (d.put .new (some (.whole deltas g))) =
        [(d.put .new (some (.whole deltas g))).rename .main .old] := by
      unfold moveAside
      rw [if_pos]
      exact hm
    unfold swapFiles
    dsimp only
    rw [hma]
    refine ⟨?_, rfl⟩
    intro k hk1 hk3
    have : k = 1 ∨ k = 2 ∨ k = 3 := by omega
    rcases this with rfl | rfl | rfl <;> rfl

/-- An exception while the file is written, for example because of a scalar, also leaves
`<f>.new`. -/
theorem restart_exception_blocks (order : SetOrder) (deltas : Bool) (d : Disk) (hd : d .new = none) (s : State)
    (hs : RestartOk s) (ht : ∃ t, Dict.get? s "time" = some (.time t)) (hn : "" ∉ Dict.keys s) (q : String) (a : DataArray)
    (hq : Dict.get? s q = some (.da a)) (hqt : q ≠ "time") (ha : a.arr.shape = []) :
    (∃ e, (restartStore order deltas d s).2 = .error e) ∧
    lastDisk d (restartStore order deltas d s).1 .new = some .broken := by
  obtain ⟨t, ht⟩ := ht
  have hp : ncPrepare order (restartMon deltas) s = .ok (t, Dict.erase s "time") := by
    unfold ncPrepare State.time
    dsimp only [restartMon, ncSelect, ncAliases]
    rw [if_neg hn, Exc.ok_bind, ht]
    rfl
  have hst : ncStore order (restartMon deltas) s =
      ({ restartMon deltas with cache := ncCacheAdd [] t (Dict.erase s "time") }, .ok ()) := by
    unfold ncStore
    rw [hp]
    rfl
  have hm : NewMonitor (restartMon deltas) := ⟨rfl, show (0 : Rat) < 1000000 by decide +kernel, empty_valid _ _⟩
  have haft : ncAfter order (restartMon deltas) [.store s] =
      ({ restartMon deltas with cache := ncCacheAdd [] t (Dict.erase s "time") }, [(t, Dict.erase s "time")]) := by
    unfold ncAfter
    show NCOp.run order (restartMon deltas, []) (.store s) = _
    unfold NCOp.run
    dsimp only
    simp only [hst, hp]
    rfl
  have hw := netcdf_scalar_raises order (restartMon deltas) hm [.store s]
    (fun s' hs' => by
      simp only [List.mem_singleton, NCOp.store.injEq] at hs'
      subst hs'
      exact hs.stateOk) t q a
    (by
      rw [haft]
      show (none : Option Val).or (if t = t then _ else _) = _
      rw [if_pos rfl, Dict.get?_erase_ne _ (Ne.symm hqt), hq]
      rfl) ha
  rw [haft] at hw
  unfold restartStore
  have hf : d.isFile .new = false := by
    unfold Disk.isFile
    rw [hd]
    rfl
  rw [hf, if_neg (by simp), hst]
  dsimp only at hw ⊢
  rcases hr : ncWrite { restartMon deltas with cache := ncCacheAdd [] t (Dict.erase s "time") } with ⟨m2, r2⟩
  rw [hr] at hw
  cases r2 with
  | ok u => exact absurd rfl hw
  | error e => exact ⟨⟨e, rfl⟩, rfl⟩

/-- **C54, with manual intervention.**  After any history in which a store returned, once
`<f>.old` is moved to `<f>` if that is missing and `<f>.new` is removed: `<f>` is a complete
copy of the last stored state or of a later one, so that it can be loaded, and further
states can be stored. -/
theorem restart_recovers (order : SetOrder) (d : Disk) (hd : d .main ≠ some .broken) (hold : d .old ≠ some .broken)
    (evs : List REvent) (h : EventsOk evs) (pre post : List (State × Bool)) (s : State)
    (hsp : (restartAfter order d evs).stored = pre ++ (s, true) :: post) :
    ∃ x s', (restartAfter order d (evs ++ [.restoreOld, .removeNew])).disk .main = some x ∧
      s' ∈ s :: post.map (·.1) ∧ x.CopyOf s' ∧
      (restartAfter order d (evs ++ [.restoreOld, .removeNew])).disk .new = none := by
  obtain ⟨hi, -⟩ := restart_inv order d hd hold evs h
  obtain ⟨i1, i2⟩ := hi.held pre s post hsp
  have hrun : restartAfter order d (evs ++ [.restoreOld, .removeNew]) =
      REvent.run order (REvent.run order (restartAfter order d evs) .restoreOld) .removeNew := by
    unfold restartAfter
    rw [List.foldl_append]
    rfl
  rw [hrun]
  generalize restartAfter order d evs = hh at *
  unfold REvent.run
  dsimp only
  cases hm : hh.disk .main with
  | some x =>
    obtain ⟨s', h1, h2⟩ := i1 x hm
    have hc : ¬ (hh.disk.isFile .old = true ∧ ¬ hh.disk.isFile .main = true) := by
      rintro ⟨-, hc⟩
      apply hc
      unfold Disk.isFile
      rw [hm]
      rfl
    rw [if_neg hc]
    exact ⟨x, s', hm, h1, h2, rfl⟩
  | none =>
    obtain ⟨x, hx, s', h1, h2⟩ := i2 hm
    have hc : hh.disk.isFile .old = true ∧ ¬ hh.disk.isFile .main = true := by
      unfold Disk.isFile
      rw [hm, hx]
      exact ⟨rfl, by simp⟩
    rw [if_pos hc]
    exact ⟨x, s', hx, h1, h2, rfl⟩

end Verif
