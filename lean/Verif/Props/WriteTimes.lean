import Verif.Spec.WriteTimes
import Verif.Props.NetCDFExamples
import Mathlib.Data.Rat.Floor
import Mathlib.Data.List.Induction
/-!
# C111: when a NetCDFMonitor is written makes no difference
-/

namespace Verif

/-! ## Times -/

theorem truncRat_whole {us : Rat} (h : 0 < us) (ref t : Int) :
    WholeUnits us ref t (truncRat ((t - ref : Int) / us)) := by
  have hq : ((t - ref : Int) : Rat) = ((t - ref : Int) / us) * us := by field_simp
  generalize hx : (((t - ref : Int) : Rat) / us) = x at *
  have hnum : (x.num : Rat) = x * x.den := by
    have := Rat.num_div_den x
    have hd : (x.den : Rat) ≠ 0 := by exact_mod_cast x.den_ne_zero
    field_simp at this ⊢
    linarith [this]
  have hden : (0 : Rat) < x.den := by exact_mod_cast x.den_pos
  have hmod := Int.mul_tdiv_add_tmod x.num x.den
  have hmodq : (x.den : Rat) * (truncRat x : Rat) + (Int.tmod x.num x.den : Int) = x.num := by
    unfold truncRat
    exact_mod_cast hmod
  constructor
  · intro hle
    have hx0 : 0 ≤ x := by
      rw [← hx]
      exact div_nonneg (by exact_mod_cast (by omega : (0 : Int) ≤ t - ref)) h.le
    have hn0 : 0 ≤ x.num := Rat.num_nonneg.2 hx0
    have m0 : 0 ≤ Int.tmod x.num x.den := Int.tmod_nonneg _ hn0
    have m1 : Int.tmod x.num x.den < x.den := Int.tmod_lt_of_pos _ (by exact_mod_cast x.den_pos)
    have m0' : (0 : Rat) ≤ (Int.tmod x.num x.den : Int) := by exact_mod_cast m0
    have m1' : ((Int.tmod x.num x.den : Int) : Rat) < x.den := by exact_mod_cast m1
    have a1 : (truncRat x : Rat) ≤ x := by
      by_contra hc
      push Not at hc
      nlinarith [mul_lt_mul_of_pos_left hc hden]
    have a2 : x < truncRat x + 1 := by
      by_contra hc
      push Not at hc
      nlinarith [mul_le_mul_of_nonneg_left hc hden.le]
    rw [hq]
    exact ⟨mul_le_mul_of_nonneg_right a1 h.le, mul_lt_mul_of_pos_right a2 h⟩
  · intro hle
    have hx0 : x ≤ 0 := by
      rw [← hx]
      exact div_nonpos_of_nonpos_of_nonneg (by exact_mod_cast (by omega : t - ref ≤ (0 : Int))) h.le
    have hn0 : x.num ≤ 0 := Rat.num_nonpos.2 hx0
    have m0 : Int.tmod x.num x.den ≤ 0 := by
      have := Int.tmod_nonneg (x.den : Int) (show 0 ≤ -x.num by omega)
      rw [Int.neg_tmod] at this
      omega
    have m1 : -(x.den : Int) < Int.tmod x.num x.den := by
      have := Int.tmod_lt_of_pos (-x.num) (show 0 < (x.den : Int) by exact_mod_cast x.den_pos)
      rw [Int.neg_tmod] at this
      omega
    have m0' : ((Int.tmod x.num x.den : Int) : Rat) ≤ 0 := by exact_mod_cast m0
    have m1' : -(x.den : Rat) < ((Int.tmod x.num x.den : Int) : Rat) := by exact_mod_cast m1
    have a1 : x ≤ truncRat x := by
      by_contra hc
      push Not at hc
      nlinarith [mul_lt_mul_of_pos_left hc hden]
    have a2 : (truncRat x : Rat) - 1 < x := by
      by_contra hc
      push Not at hc
      nlinarith [mul_le_mul_of_nonneg_left hc hden.le]
    rw [hq]
    exact ⟨mul_le_mul_of_nonneg_right a1 h.le, mul_lt_mul_of_pos_right a2 h⟩

theorem WholeUnits.unique {us : Rat} (h : 0 < us) {ref t n n' : Int} (a : WholeUnits us ref t n)
    (b : WholeUnits us ref t n') : n = n' := by
  have key : ∀ {k k' : Int}, (k : Rat) < k' + 1 → k ≤ k' := fun {k k'} hk => by
    have : k < k' + 1 := by exact_mod_cast hk
    omega
  rcases le_total ref t with hle | hle
  · obtain ⟨a1, a2⟩ := a.1 hle
    obtain ⟨b1, b2⟩ := b.1 hle
    exact le_antisymm (key (lt_of_mul_lt_mul_right (a1.trans_lt b2) h.le))
      (key (lt_of_mul_lt_mul_right (b1.trans_lt a2) h.le))
  · obtain ⟨a1, a2⟩ := a.2 hle
    obtain ⟨b1, b2⟩ := b.2 hle
    have k1 : (n' - 1 : Rat) < n := lt_of_mul_lt_mul_right (b2.trans_le a1) h.le
    have k2 : (n - 1 : Rat) < n' := lt_of_mul_lt_mul_right (a2.trans_le b1) h.le
    exact le_antisymm (key (by linarith)) (key (by linarith))

/-- The numbers of the times appended by a write. -/
theorem writeFile_times {us : Rat} {deltas : Bool} {c : NCCache} {f : NCFile}
    (h : (ncWriteFile us deltas c f).2 = .ok ()) (j : Nat) (t : Int) (hj : ((ncSort c).map (·.1))[j]? = some t) :
    (ncWriteFile us deltas c f).1.times (f.ntime + j) =
      some (fileTime us deltas (ncWriteFile us deltas c f).1.timeVar t) := by
  unfold ncWriteFile at h ⊢
  cases hk : ncCheckKeys c f with
  | error e => rw [hk] at h; cases h
  | ok u =>
    rw [hk] at h
    dsimp only at h ⊢
    cases hs : ncSort c with
    | nil => rw [hs] at h; cases h
    | cons x rest =>
      obtain ⟨t0, s0⟩ := x
      rw [hs] at h hj
      dsimp only at h ⊢
      obtain ⟨e1, -⟩ := ensureTime_spec us deltas f t0
      rcases hr : ensureTime us deltas f t0 with ⟨f1, r⟩
      rw [hr] at h e1
      cases r with
      | error e => cases h
      | ok u =>
        dsimp only at h e1 ⊢
        cases hcs : combineStates (((t0, s0) :: rest).map (·.2)) with
        | error e => rw [hcs] at h; cases h
        | ok stk =>
          dsimp only
          have hkeep := (writeVars_keeps f1.ntime stk (appendTimes us deltas f1 (((t0, s0) :: rest).map (·.1)))).1
          rw [hkeep.times, hkeep.timeVar]
          have hlt : j < (((t0, s0) :: rest).map (·.1)).length := (List.getElem?_eq_some_iff.1 hj).1
          generalize ((t0, s0) :: rest).map (·.1) = ts at *
          show (if f1.ntime ≤ f.ntime + j ∧ f.ntime + j < f1.ntime + ts.length then _ else _) = _
          rw [if_pos (by omega), show f.ntime + j - f1.ntime = j by omega, hj]
          rfl

/-! ## Stores -/

theorem lastStored_append' (w r : List (Int × State)) (t : Int) (q : String) :
    lastStored (w ++ r) t q = (lastStored r t q).or (lastStored w t q) := by
  induction w with
  | nil => simp [lastStored]
  | cons p w ih =>
    obtain ⟨t', s⟩ := p
    show (lastStored (w ++ r) t q).or _ = _
    rw [ih, Option.or_assoc]
    rfl

theorem lastStored_none {ps : List (Int × State)} {t : Int} (h : ∀ p ∈ ps, p.1 ≠ t) (q : String) :
    lastStored ps t q = none := by
  cases hv : lastStored ps t q with
  | none => rfl
  | some v =>
    obtain ⟨p, hp, e, -⟩ := lastStored_mem hv
    exact absurd e (h p hp)

theorem storedBy_append (order : SetOrder) (m : NCMon) (a b : List NCOp) :
    storedBy order m (a ++ b) = storedBy order m a ++ storedBy order m b := by
  induction a with
  | nil => rfl
  | cons op a ih =>
    cases op with
    | write => exact ih
    | store s =>
      show (match ncPrepare order m s with
        | .ok p => p :: storedBy order m (a ++ b)
        | .error _ => storedBy order m (a ++ b)) = (match ncPrepare order m s with
        | .ok p => p :: storedBy order m a
        | .error _ => storedBy order m a) ++ _
      rw [ih]
      cases ncPrepare order m s <;> rfl

/-- What was stored up to some moment has the same quantities, if what comes later is for later
times. -/
theorem SameQuantities.prefix {L : String → Nat} {D : String → Option (List String × Dict String)}
    {a b : List (Int × State)} (h : SameQuantities L D (a ++ b)) (hab : ∀ p ∈ a, ∀ p' ∈ b, p.1 < p'.1) :
    SameQuantities L D a := by
  have key : ∀ p ∈ a, ∀ q, lastStored (a ++ b) p.1 q = lastStored a p.1 q := by
    intro p hp q
    rw [lastStored_append', lastStored_none (ps := b) (fun p' hp' e => by
      have := hab p hp p' hp'
      omega), Option.none_or]
  refine ⟨fun q hq p hp => ?_, fun q ds u hq p hp => ?_, h.dims⟩
  · rw [← key p hp]
    exact h.absent q hq p (List.mem_append_left _ hp)
  · rw [← key p hp]
    exact h.present q ds u hq p (List.mem_append_left _ hp)

theorem SameQuantities.isSome {L : String → Nat} {D : String → Option (List String × Dict String)}
    {ps : List (Int × State)} (h : SameQuantities L D ps) {p : Int × State} (hp : p ∈ ps) (q : String) :
    (lastStored ps p.1 q).isSome ↔ (D q).isSome := by
  cases hq : D q with
  | none => rw [h.absent q hq p hp]; simp
  | some x =>
    obtain ⟨a, ha, -⟩ := h.present q x.1 x.2 hq p hp
    rw [ha]
    exact ⟨fun _ => rfl, fun _ => rfl⟩

/-- A value that was stored last for some time. -/
theorem SameQuantities.value {L : String → Nat} {D : String → Option (List String × Dict String)}
    {ps : List (Int × State)} (h : SameQuantities L D ps) {t : Int} {q : String} {v : Val}
    (hv : lastStored ps t q = some v) :
    ∃ a u, v = .da a ∧ D q = some (a.dims, u) ∧ a.attrs = u ∧ a.arr.shape = a.dims.map L ∧
      a.dims ≠ [] ∧ "time" ∉ a.dims ∧ (Dict.keys u).Nodup := by
  obtain ⟨p, hp, rfl, -⟩ := lastStored_mem hv
  cases hq : D q with
  | none => rw [h.absent q hq p hp] at hv; cases hv
  | some x =>
    obtain ⟨ds, u⟩ := x
    obtain ⟨a, ha, rfl, e2, e3⟩ := h.present q ds u hq p hp
    rw [ha] at hv
    injection hv with hv
    obtain ⟨d1, d2, d3⟩ := h.dims q _ u hq
    exact ⟨a, u, hv.symm, rfl, e2, e3, d1, d2, d3⟩

/-- The file after some stores were written. -/
def FileAfter (L : String → Nat) (us : Rat) (deltas : Bool) (w : List (Int × State)) (f : NCFile) : Prop :=
  (w = [] ∧ f = NCFile.empty) ∨ (w ≠ [] ∧ DimsAgree L f ∧ ∃ ts, RecordsOf us deltas w f ts)

/-- One write appends the waiting stores. -/
theorem write_later {L : String → Nat} {D : String → Option (List String × Dict String)} {us : Rat} {deltas : Bool}
    {m : NCMon} {w r : List (Int × State)} (hus : 0 < us) (hinv : NCInv m r us deltas)
    (hf : FileAfter L us deltas w (m.file.getD NCFile.empty)) (hr : r ≠ []) (hlater : ∀ p ∈ w, ∀ p' ∈ r, p.1 < p'.1)
    (hsame : SameQuantities L D (w ++ r)) :
    (ncWrite m).2 = .ok () ∧ FileAfter L us deltas (w ++ r) ((ncWrite m).1.file.getD NCFile.empty) := by
  obtain ⟨w1, w2, -⟩ := ncWrite_eq m
  rw [w1, w2, Option.getD_some, hinv.us, hinv.deltas]
  have hvalid := hinv.file
  have hcache := hinv.cache
  have hstates := hinv.states
  clear w1 w2 hinv
  generalize m.file.getD NCFile.empty = f at *
  generalize m.cache = c at *
  have hw := hsame.prefix hlater
  have hrkey : ∀ t, (∃ p ∈ r, p.1 = t) → ∀ q, lastStored (w ++ r) t q = lastStored r t q := by
    rintro t ⟨p, hp, rfl⟩ q
    rw [lastStored_append', lastStored_none (ps := w) (fun p' hp' e => by
      have := hlater p' hp' p hp
      omega), Option.or_none]
  have hwkey : ∀ t, (∃ p ∈ w, p.1 = t) → ∀ q, lastStored (w ++ r) t q = lastStored w t q := by
    rintro t ⟨p, hp, rfl⟩ q
    rw [lastStored_append', lastStored_none (ps := r) (fun p' hp' e => by
      have := hlater p hp p' hp'
      omega), Option.none_or]
  have hrs : SameQuantities L D r := by
    refine ⟨fun q hq p hp => ?_, fun q ds u hq p hp => ?_, hsame.dims⟩
    · rw [← hrkey p.1 ⟨p, hp, rfl⟩]
      exact hsame.absent q hq p (List.mem_append_right _ hp)
    · rw [← hrkey p.1 ⟨p, hp, rfl⟩]
      exact hsame.present q ds u hq p (List.mem_append_right _ hp)
  -- a variable of the file
  have hvar : ∀ q v, f.vars.get? q = some v → ∃ ds u, D q = some (ds, u) ∧ v.dims = "time" :: ds ∧ v.attrs = u ∧
      rowShape f ds = ds.map L := by
    intro q v hv
    rcases hf with ⟨-, rfl⟩ | ⟨hne, hd, ts, hrec⟩
    · cases hv
    · obtain ⟨p, hp⟩ := List.exists_mem_of_ne_nil w hne
      have hpt := (hrec.times p.1).2 ⟨p, hp, rfl⟩
      have hs := (hrec.complete p.1 hpt q).1 (Dict.mem_keys_of_get? hv)
      obtain ⟨x, hx⟩ := Option.isSome_iff_exists.1 hs
      obtain ⟨a, u, rfl, hD, e1, e2, e3, e4, e5⟩ := hw.value hx
      obtain ⟨j, hj⟩ := List.mem_iff_getElem?.1 hpt
      obtain ⟨v', hv', d1, d2, -⟩ := hrec.values j p.1 q a hj hx
      rw [hv] at hv'
      injection hv' with hv'
      subst hv'
      refine ⟨a.dims, u, hD, d1, d2.trans e1, hd.rowShape ?_ e4⟩
      obtain ⟨ds, hds, hex⟩ := hvalid.wf q v hv
      rw [d1] at hds
      injection hds with _ hds
      subst hds
      exact hex
  have hreg : RegularBatch f r := by
    refine ⟨?_, ?_, ?_⟩
    · intro q t t' a a' ha ha'
      obtain ⟨b, u, hb, hD, e1, e2, -⟩ := hrs.value ha
      obtain ⟨b', u', hb', hD', e1', e2', -⟩ := hrs.value ha'
      injection hb with hb
      injection hb' with hb'
      subst hb hb'
      rw [hD] at hD'
      injection hD' with hD'
      injection hD' with h1 h2
      exact ⟨h1, by rw [e2, e2', h1], by rw [e1, e1', h2]⟩
    · intro q t a v ha hv
      obtain ⟨b, u, hb, hD, e1, e2, -⟩ := hrs.value ha
      injection hb with hb
      subst hb
      obtain ⟨ds, u', hD', d1, d2, d3⟩ := hvar q v hv
      rw [hD] at hD'
      injection hD' with hD'
      injection hD' with h1 h2
      rw [d1, List.tail_cons, d3, ← h1, e2]
    · intro q t a ha
      obtain ⟨b, u, hb, hD, e1, e2, -, e4, -⟩ := hrs.value ha
      injection hb with hb
      subst hb
      exact ⟨by rw [e2, List.length_map], e4⟩
  have hfit : FitsFile L f r := by
    refine ⟨?_, ?_, ?_, ?_⟩
    · intro q t v hv
      obtain ⟨a, u, rfl, -, -, e2, e3, -⟩ := hrs.value hv
      refine ⟨a, rfl, ?_, e2⟩
      rw [e2, List.length_map]
      intro e
      exact e3 (List.eq_nil_of_length_eq_zero e)
    · intro d n hd
      rcases hf with ⟨-, rfl⟩ | ⟨-, h, -⟩
      · cases hd
      · exact h.len d n hd
    · intro x hx
      rcases hf with ⟨-, rfl⟩ | ⟨-, h, -⟩
      · cases hx
      · rw [h.time] at hx
        injection hx with hx
        exact hx.symm
    · intro q t a v ha hv
      obtain ⟨b, u, hb, hD, e1, e2, -, -, e5⟩ := hrs.value ha
      injection hb with hb
      subst hb
      obtain ⟨ds, u', hD', d1, d2, d3⟩ := hvar q v hv
      rw [hD] at hD'
      injection hD' with hD'
      injection hD' with h1 h2
      refine ⟨by rw [d1, h1], fun k x hk => ?_⟩
      rw [d2, ← h2]
      rw [e1] at hk
      exact Dict.get?_of_mem e5 hk
  have hcs : ∀ t s, (t, s) ∈ c → ∀ q, q ∈ Dict.keys s ↔ (D q).isSome := by
    intro t s hm q
    obtain ⟨p, hp, rfl⟩ := (hcache.times t).1 (List.mem_map.2 ⟨_, hm, rfl⟩)
    rw [← hrs.isSome hp q, ← hcache.vals, cacheGet_of_mem hcache.nodup hm]
    exact (Dict.get?_isSome_iff _ _).symm
  have hkeys : ncCheckKeys c f = .ok () := by
    refine (ncCheckKeys_iff hcache.keys hvalid.nodup).1.2 ⟨?_, ?_⟩
    · intro t s t' s' hm hm' q
      rw [hcs t s hm, hcs t' s' hm']
    · intro hv t s hm q
      rw [hcs t s hm]
      rcases hf with ⟨-, rfl⟩ | ⟨hne, -, ts, hrec⟩
      · exact absurd rfl hv
      · obtain ⟨p, hp⟩ := List.exists_mem_of_ne_nil w hne
        rw [hrec.complete p.1 ((hrec.times p.1).2 ⟨p, hp, rfl⟩) q, hw.isSome hp]
  obtain ⟨hok, hda⟩ := writeFile_succeeds hcache hstates hvalid hr hreg hfit hkeys
  refine ⟨hok, .inr ⟨by simp [hr], hda, ?_⟩⟩
  obtain ⟨ts', happ, us', ref, t1, t2, t3, -⟩ := writeFile_appends hcache hstates hvalid hreg hok
  have hnum := writeFile_times hok
  have hts' : (ncSort c).map (·.1) = ts' := by
    refine List.Perm.eq_of_pairwise (le := (· < ·)) (fun a b _ _ h1 h2 => by omega) (ncSort_increasing hcache.nodup)
      happ.increasing ?_
    refine (List.perm_ext_iff_of_nodup ((ncSort_increasing hcache.nodup).imp (fun h => by omega))
      (happ.increasing.imp (fun h => by omega))).2 fun t => ?_
    rw [happ.times, ← hcache.times, ((ncSort_perm c).map (·.1)).mem_iff]
  rw [hts'] at hnum
  generalize (ncWriteFile us deltas c f).1 = f' at *
  have hts'ne : ts' ≠ [] := by
    obtain ⟨p, hp⟩ := List.exists_mem_of_ne_nil r hr
    exact List.ne_nil_of_mem ((happ.times p.1).2 ⟨p, hp, rfl⟩)
  have hcomplete : ∀ q, q ∈ Dict.keys f'.vars ↔ (D q).isSome := by
    intro q
    obtain ⟨t, ht⟩ := List.exists_mem_of_ne_nil ts' hts'ne
    obtain ⟨p, hp, rfl⟩ := (happ.times t).1 ht
    rw [happ.complete p.1 ht, hrs.isSome hp]
  have hnewval : ∀ (j : Nat) t q a, ts'[j]? = some t → lastStored (w ++ r) t q = some (.da a) →
      ∃ v, f'.vars.get? q = some v ∧ v.dims = "time" :: a.dims ∧ v.attrs = a.attrs ∧
        v.rows (f.ntime + j) = some a.arr := by
    intro j t q a hj ha
    have htm := (happ.times t).1 (List.mem_iff_getElem?.2 ⟨j, hj⟩)
    rw [hrkey t htm] at ha
    obtain ⟨b, hb, v, v1, v2, -, v4⟩ := happ.records j t hj q _ ha
    injection hb with hb
    subst hb
    refine ⟨v, v1, v2, ?_, v4⟩
    cases hq : f.vars.get? q with
    | none => exact happ.newAttrs q v hq v1 t a ha
    | some v0 =>
      obtain ⟨ds, u, hD, -, d2, -⟩ := hvar q v0 hq
      obtain ⟨v', hv', -, x2, -⟩ := happ.oldVars q v0 hq
      rw [v1] at hv'
      injection hv' with hv'
      subst hv'
      obtain ⟨b, u', hb, hD', e1, -⟩ := hrs.value ha
      injection hb with hb
      subst hb
      rw [hD] at hD'
      injection hD' with hD'
      injection hD' with h1 h2
      rw [x2, d2, e1, h2]
  rcases hf with ⟨rfl, rfl⟩ | ⟨hne, -, ts, hrec⟩
  · obtain ⟨rfl, href⟩ := t3 rfl
    subst href
    simp only [List.nil_append] at *
    refine ⟨ts', ⟨happ.increasing, happ.times, ?_, t1, ?_, ?_, ?_⟩⟩
    · have := happ.ntime
      rw [this]
      exact Nat.zero_add _
    · intro j t hj
      have := hnum j t hj
      rw [show NCFile.empty.ntime + j = j from Nat.zero_add j] at this
      refine ⟨_, this, ?_⟩
      rw [t1]
      unfold fileTime
      cases deltas with
      | true =>
        have := truncRat_whole hus 0 t
        rw [Int.sub_zero] at this
        exact this
      | false => exact truncRat_whole hus _ t
    · intro t ht q
      obtain ⟨p, hp, rfl⟩ := (happ.times t).1 ht
      rw [hcomplete, hrs.isSome hp]
    · intro j t q a hj ha
      obtain ⟨v, v1, v2, v3, v4⟩ := hnewval j t q a hj ha
      rw [show NCFile.empty.ntime + j = j from Nat.zero_add j] at v4
      exact ⟨v, v1, v2, v3, v4⟩
  · have htsne : ts ≠ [] := by
      obtain ⟨p, hp⟩ := List.exists_mem_of_ne_nil w hne
      exact List.ne_nil_of_mem ((hrec.times p.1).2 ⟨p, hp, rfl⟩)
    have hhead : (ts ++ ts').headD 0 = ts.headD 0 := by
      cases ts with
      | nil => exact absurd rfl htsne
      | cons x ts => rfl
    have hx := t2 _ hrec.timeVar
    injection hx with hx1 hx2
    subst hx1 hx2
    refine ⟨ts ++ ts', ⟨?_, ?_, ?_, ?_, ?_, ?_, ?_⟩⟩
    · refine List.pairwise_append.2 ⟨hrec.increasing, happ.increasing, fun t ht t' ht' => ?_⟩
      obtain ⟨p, hp, rfl⟩ := (hrec.times t).1 ht
      obtain ⟨p', hp', rfl⟩ := (happ.times t').1 ht'
      exact hlater p hp p' hp'
    · intro t
      rw [List.mem_append, hrec.times, happ.times]
      constructor
      · rintro (⟨p, hp, e⟩ | ⟨p, hp, e⟩)
        · exact ⟨p, List.mem_append_left _ hp, e⟩
        · exact ⟨p, List.mem_append_right _ hp, e⟩
      · rintro ⟨p, hp, e⟩
        rcases List.mem_append.1 hp with hp | hp
        · exact .inl ⟨p, hp, e⟩
        · exact .inr ⟨p, hp, e⟩
    · rw [happ.ntime, hrec.ntime, List.length_append]
    · rw [hhead]
      exact t1
    · rw [hhead]
      intro j t hj
      rcases Nat.lt_or_ge j ts.length with hlt | hge
      · rw [List.getElem?_append_left hlt] at hj
        obtain ⟨n, h1, h2⟩ := hrec.numbers j t hj
        exact ⟨n, (happ.oldTimes j (by rw [hrec.ntime]; exact hlt)).trans h1, h2⟩
      · rw [List.getElem?_append_right hge] at hj
        have := hnum _ t hj
        rw [hrec.ntime, show ts.length + (j - ts.length) = j by omega] at this
        refine ⟨_, this, ?_⟩
        rw [t1]
        unfold fileTime
        cases deltas with
        | true =>
          have := truncRat_whole hus 0 t
          rw [Int.sub_zero] at this
          exact this
        | false => exact truncRat_whole hus _ t
    · intro t ht q
      have : ∃ p ∈ w ++ r, p.1 = t := by
        rcases List.mem_append.1 ht with ht | ht
        · obtain ⟨p, hp, e⟩ := (hrec.times t).1 ht
          exact ⟨p, List.mem_append_left _ hp, e⟩
        · obtain ⟨p, hp, e⟩ := (happ.times t).1 ht
          exact ⟨p, List.mem_append_right _ hp, e⟩
      obtain ⟨p, hp, rfl⟩ := this
      rw [hcomplete, hsame.isSome hp]
    · intro j t q a hj ha
      rcases Nat.lt_or_ge j ts.length with hlt | hge
      · rw [List.getElem?_append_left hlt] at hj
        rw [hwkey t ((hrec.times t).1 (List.mem_iff_getElem?.2 ⟨j, hj⟩))] at ha
        obtain ⟨v, v1, v2, v3, v4⟩ := hrec.values j t q a hj ha
        obtain ⟨v', x1, x2, x3, x4⟩ := happ.oldVars q v v1
        exact ⟨v', x1, x2.trans v2, x3.trans v3, (x4 j (by rw [hrec.ntime]; exact hlt)).trans v4⟩
      · rw [List.getElem?_append_right hge] at hj
        obtain ⟨v, v1, v2, v3, v4⟩ := hnewval _ t q a hj ha
        rw [hrec.ntime, show ts.length + (j - ts.length) = j by omega] at v4
        exact ⟨v, v1, v2, v3, v4⟩

/-! ## Programs -/

theorem ncPrepare_congr {order : SetOrder} {m m' : NCMon} (h1 : m'.storeNames = m.storeNames)
    (h2 : m'.aliases = m.aliases) (s : State) : ncPrepare order m' s = ncPrepare order m s := by
  unfold ncPrepare
  rw [h1, h2]

theorem ncWrite_settings (m : NCMon) : (ncWrite m).1.storeNames = m.storeNames ∧ (ncWrite m).1.aliases = m.aliases ∧
    (ncWrite m).1.writeOnStore = m.writeOnStore := by
  unfold ncWrite
  rcases ncWriteFile m.usPerUnit m.deltas m.cache (m.file.getD NCFile.empty) with ⟨f, r⟩
  cases r <;> exact ⟨rfl, rfl, rfl⟩

/-- The calls up to a write. -/
def EndsWithWrite (m : NCMon) (pre : List NCOp) : Prop :=
  pre = [] ∨ ∃ x op, pre = x ++ [op] ∧ (op = .write ∨ m.writeOnStore = true)

/-- What holds during a program. -/
structure Running (L : String → Nat) (order : SetOrder) (m : NCMon) (pre : List NCOp) (mp : NCMon × List (Int × State)) :
    Prop where
  inv : NCInv mp.1 mp.2 m.usPerUnit m.deltas
  storeNames : mp.1.storeNames = m.storeNames
  aliases : mp.1.aliases = m.aliases
  writeOnStore : mp.1.writeOnStore = m.writeOnStore
  split : ∃ done rest, pre = done ++ rest ∧ EndsWithWrite m done ∧ storedBy order m rest = mp.2 ∧
    FileAfter L m.usPerUnit m.deltas (storedBy order m done) (mp.1.file.getD NCFile.empty)

theorem EndsWithWrite.before {order : SetOrder} {m : NCMon} {done rest : List NCOp} (h : EndsWithWrite m done)
    (ho : WrittenInOrder order m (done ++ rest)) :
    ∀ p ∈ storedBy order m done, ∀ p' ∈ storedBy order m rest, p.1 < p'.1 := by
  rcases h with rfl | ⟨x, op, rfl, hop⟩
  · intro p hp
    cases hp
  · exact ho x op rest (by simp) hop

theorem write_nothing_keeps {m : NCMon} {us : Rat} {deltas : Bool} (h : NCInv m [] us deltas) :
    (ncWrite m).2 = .error .valueError ∧ (ncWrite m).1.file = some (m.file.getD NCFile.empty) := by
  have hc : m.cache = [] := by
    cases hc : m.cache with
    | nil => rfl
    | cons x l =>
      have := (h.cache.times x.1).1 (by rw [hc]; simp)
      obtain ⟨p, hp, -⟩ := this
      cases hp
  obtain ⟨w1, w2, -⟩ := ncWrite_eq m
  rw [w1, w2, hc]
  exact ⟨rfl, rfl⟩

/-- The result of a call of a program. -/
def NCOp.result (order : SetOrder) (m : NCMon) : NCOp → Except Err Unit
  | .store s => (ncStore order m s).2
  | .write => (ncWrite m).2

/-- One call. -/
theorem Running.step {L : String → Nat} {D : String → Option (List String × Dict String)} {order : SetOrder} {m : NCMon}
    (hus : 0 < m.usPerUnit) {pre : List NCOp} {mp : NCMon × List (Int × State)} (h : Running L order m pre mp)
    (op : NCOp) (hop : ∀ s, op = .store s → StateOk s)
    (hsame : (op = .write ∨ m.writeOnStore = true) → SameQuantities L D (storedBy order m (pre ++ [op])))
    (horder : WrittenInOrder order m (pre ++ [op])) :
    Running L order m (pre ++ [op]) (op.run order mp) ∧
    (op.result order mp.1 = .ok () ∨ (op = .write ∧ mp.2 = [] ∧ op.result order mp.1 = .error .valueError) ∨
      ∃ s e, op = .store s ∧ ncPrepare order m s = .error e ∧ op.result order mp.1 = .error e) := by
  have hinv := op_run_inv (order := order) h.inv op hop
  obtain ⟨m', r⟩ := mp
  obtain ⟨done, rest, rfl, hends, hrest, hfile⟩ := h.split
  dsimp only at hrest hfile
  rw [List.append_assoc] at horder
  have hlater := hends.before horder
  rw [storedBy_append, hrest] at hlater
  have hst : storedBy order m (done ++ rest ++ [op]) = storedBy order m done ++ (r ++ storedBy order m [op]) := by
    rw [storedBy_append, storedBy_append, hrest, List.append_assoc]
  rw [hst] at hsame
  cases op with
  | write =>
    have hset := ncWrite_settings m'
    rw [show storedBy order m [NCOp.write] = [] from rfl, List.append_nil] at hlater hsame hst
    by_cases hr : r = []
    · subst hr
      obtain ⟨e1, e2⟩ := write_nothing_keeps h.inv
      refine ⟨⟨hinv, hset.1.trans h.storeNames, hset.2.1.trans h.aliases, hset.2.2.trans h.writeOnStore, done,
        rest ++ [.write], List.append_assoc _ _ _, hends, ?_, ?_⟩, .inr (.inl ⟨rfl, rfl, e1⟩)⟩
      · rw [storedBy_append, hrest]
        show [] = (if _ then [] else [])
        split <;> rfl
      · show FileAfter L _ _ _ ((ncWrite m').1.file.getD NCFile.empty)
        rw [e2]
        exact hfile
    · obtain ⟨e1, e2⟩ := write_later hus h.inv hfile hr hlater (hsame (.inl rfl))
      refine ⟨⟨hinv, hset.1.trans h.storeNames, hset.2.1.trans h.aliases, hset.2.2.trans h.writeOnStore,
        done ++ rest ++ [.write], [], (List.append_nil _).symm, .inr ⟨_, _, rfl, .inl rfl⟩, ?_, ?_⟩, .inl e1⟩
      · show [] = (if (ncWrite m').2.isOk = true then [] else r)
        rw [e1]
        rfl
      · rw [hst]
        exact e2
  | store s =>
    have hprep : ncPrepare order m' s = ncPrepare order m s := ncPrepare_congr h.storeNames h.aliases s
    cases hp : ncPrepare order m s with
    | error e =>
      have hs : ncStore order m' s = (m', .error e) := by unfold ncStore; rw [hprep, hp]
      have hrun : NCOp.run order (m', r) (.store s) = (m', r) := by
        unfold NCOp.run
        dsimp only
        rw [hs, hprep, hp]
      rw [hrun] at hinv ⊢
      refine ⟨⟨hinv, h.storeNames, h.aliases, h.writeOnStore, done, rest ++ [.store s], List.append_assoc _ _ _, hends,
        ?_, hfile⟩, .inr (.inr ⟨s, e, rfl, hp, ?_⟩)⟩
      · rw [storedBy_append, hrest]
        simp only [storedBy, hp, List.append_nil]
      · show (ncStore order m' s).2 = _
        rw [hs]
    | ok p =>
      obtain ⟨t, cs⟩ := p
      have hone : storedBy order m [.store s] = [(t, cs)] := by simp only [storedBy, hp]
      rw [hone] at hlater hsame hst
      have ha := add_inv h.inv (hop s rfl) (hprep.trans hp)
      by_cases hwos : m.writeOnStore = true
      · have hwos' : m'.writeOnStore = true := h.writeOnStore.trans hwos
        have hs : ncStore order m' s = ncWrite { m' with cache := ncCacheAdd m'.cache t cs } := by
          unfold ncStore
          rw [hprep, hp]
          exact if_pos hwos'
        obtain ⟨e1, e2⟩ := write_later hus ha hfile (by simp) hlater (hsame (.inr hwos))
        have hset := ncWrite_settings { m' with cache := ncCacheAdd m'.cache t cs }
        have hpend : (NCOp.run order (m', r) (.store s)).2 = [] := by
          unfold NCOp.run
          dsimp only
          rw [hprep, hp, hs]
          dsimp only
          rw [if_pos ⟨hwos', by rw [e1]; rfl⟩]
        have hmon : (NCOp.run order (m', r) (.store s)).1 = (ncWrite { m' with cache := ncCacheAdd m'.cache t cs }).1 := by
          unfold NCOp.run
          dsimp only
          rw [hs]
        refine ⟨⟨hinv, ?_, ?_, ?_, done ++ rest ++ [.store s], [], (List.append_nil _).symm,
          .inr ⟨_, _, rfl, .inr hwos⟩, hpend.symm, ?_⟩, .inl (by show (ncStore order m' s).2 = _; rw [hs]; exact e1)⟩
        · rw [hmon]; exact hset.1.trans h.storeNames
        · rw [hmon]; exact hset.2.1.trans h.aliases
        · rw [hmon]; exact hset.2.2.trans h.writeOnStore
        · rw [hst, hmon]
          exact e2
      · have hwos' : ¬ m'.writeOnStore = true := by rw [h.writeOnStore]; exact hwos
        have hs : ncStore order m' s = ({ m' with cache := ncCacheAdd m'.cache t cs }, .ok ()) := by
          unfold ncStore
          rw [hprep, hp]
          exact if_neg hwos'
        have hrun : NCOp.run order (m', r) (.store s) =
            ({ m' with cache := ncCacheAdd m'.cache t cs }, r ++ [(t, cs)]) := by
          unfold NCOp.run
          dsimp only
          rw [hs, hprep, hp]
          dsimp only
          rw [if_neg (fun hh => hwos' hh.1)]
        rw [hrun] at hinv ⊢
        refine ⟨⟨hinv, h.storeNames, h.aliases, h.writeOnStore, done, rest ++ [.store s], List.append_assoc _ _ _,
          hends, ?_, hfile⟩, .inl (by show (ncStore order m' s).2 = _; rw [hs])⟩
        rw [storedBy_append, hrest, hone]

theorem WrittenInOrder.left {order : SetOrder} {m : NCMon} {a b : List NCOp} (h : WrittenInOrder order m (a ++ b)) :
    WrittenInOrder order m a := by
  intro pre op post e hw p hp p' hp'
  refine h pre op (post ++ b) (by rw [e]; simp) hw p hp p' ?_
  rw [storedBy_append]
  exact List.mem_append_left _ hp'

/-- A program with what it stores. -/
structure GoodProgram (L : String → Nat) (D : String → Option (List String × Dict String)) (order : SetOrder) (m : NCMon)
    (ops : List NCOp) : Prop where
  fresh : m.cache = [] ∧ m.file = none ∧ 0 < m.usPerUnit
  states : ∀ s, .store s ∈ ops → StateOk s
  same : SameQuantities L D (storedBy order m ops)
  inOrder : WrittenInOrder order m ops

theorem GoodProgram.running {L : String → Nat} {D : String → Option (List String × Dict String)} {order : SetOrder}
    {m : NCMon} {ops : List NCOp} (h : GoodProgram L D order m ops) :
    ∀ pre post, ops = pre ++ post → Running L order m pre (ncAfter order m pre) := by
  intro pre
  induction pre using List.reverseRecOn with
  | nil =>
    intro post _
    have hnew : NewMonitor m := ⟨h.fresh.1, h.fresh.2.2, by rw [h.fresh.2.1]; exact empty_valid _ _⟩
    refine ⟨hnew.inv, rfl, rfl, rfl, [], [], rfl, .inl rfl, rfl, .inl ⟨rfl, ?_⟩⟩
    show m.file.getD _ = _
    rw [h.fresh.2.1]
    rfl
  | append_singleton pre op ih =>
    intro post e
    have e' : ops = pre ++ op :: post := by rw [e]; simp
    have hr := ih (op :: post) e'
    have hw : WrittenInOrder order m (pre ++ [op]) := by
      have := h.inOrder
      rw [e] at this
      exact this.left
    have hstep := (hr.step (D := D) h.fresh.2.2 op (fun s hs => h.states s (by rw [e', hs]; simp)) (fun hwr => by
      have hs := h.same
      rw [e, storedBy_append] at hs
      exact hs.prefix (h.inOrder pre op post e' hwr)) hw).1
    unfold ncAfter at hstep ⊢
    rw [List.foldl_append]
    exact hstep

/-- **C111.**  A program stores states in a new NetCDFMonitor and writes, by `write` or `write_on_store`,
whenever it likes.  If for every time the same quantities with the same dims, shapes and attributes are
stored, and nothing is stored for a time up to those that are written already, then no call raises
except for `write` with nothing to write, and stores of states that are invalid by themselves; and after
a last `write` the file has one record per time, in order, with what was stored for it. -/
theorem netcdf_file_of_program {L : String → Nat} {D : String → Option (List String × Dict String)} {order : SetOrder}
    {m : NCMon} {ops : List NCOp} (h : GoodProgram L D order m ops) :
    (∀ pre op post, ops = pre ++ op :: post →
      op.result order (ncAfter order m pre).1 = .ok () ∨
      (op = .write ∧ (ncAfter order m pre).2 = [] ∧ op.result order (ncAfter order m pre).1 = .error .valueError) ∨
      ∃ s e, op = .store s ∧ ncPrepare order m s = .error e ∧ op.result order (ncAfter order m pre).1 = .error e) ∧
    (storedBy order m ops ≠ [] → ∃ f ts, (ncWrite (ncAfter order m ops).1).1.file = some f ∧
      RecordsOf m.usPerUnit m.deltas (storedBy order m ops) f ts) := by
  constructor
  · intro pre op post e
    have hw : WrittenInOrder order m (pre ++ [op]) := by
      have := h.inOrder
      rw [e, show pre ++ op :: post = pre ++ [op] ++ post by simp] at this
      exact this.left
    exact ((h.running pre (op :: post) e).step (D := D) h.fresh.2.2 op
      (fun s hs => h.states s (by rw [e, hs]; simp)) (fun hwr => by
        have hs := h.same
        rw [e, show pre ++ op :: post = pre ++ [op] ++ post by simp, storedBy_append] at hs
        exact hs.prefix (h.inOrder pre op post e hwr)) hw).2
  · intro hne
    have hr := h.running ops [] (by simp)
    obtain ⟨done, rest, e, hends, hrest, hfile⟩ := hr.split
    have hw2 := (ncWrite_eq (ncAfter order m ops).1).2.1
    by_cases hp : (ncAfter order m ops).2 = []
    · have hinv := hr.inv
      rw [hp] at hinv
      obtain ⟨-, e2⟩ := write_nothing_keeps hinv
      rw [hp] at hrest
      have hst : storedBy order m ops = storedBy order m done := by
        rw [e, storedBy_append, hrest, List.append_nil]
      rcases hfile with ⟨h0, -⟩ | ⟨-, -, ts, hrec⟩
      · exact absurd (hst.trans h0) hne
      · exact ⟨_, ts, e2, by rw [hst]; exact hrec⟩
    · have hst : storedBy order m ops = storedBy order m done ++ (ncAfter order m ops).2 := by
        rw [← hrest, ← storedBy_append, ← e]
      have hlater := hends.before (rest := rest) (by rw [← e]; exact h.inOrder)
      rw [hrest] at hlater
      obtain ⟨-, hf⟩ := write_later (D := D) h.fresh.2.2 hr.inv hfile hp hlater (by rw [← hst]; exact h.same)
      rcases hf with ⟨h0, -⟩ | ⟨-, -, ts, hrec⟩
      · exact absurd h0 (by simp [hp])
      · rw [hw2, Option.getD_some] at hrec
        exact ⟨_, ts, hw2, by rw [hst]; exact hrec⟩

/-- It is enough that every store is for a later time than the one before. -/
theorem WrittenInOrder.of_increasing {order : SetOrder} {m : NCMon} {ops : List NCOp}
    (h : (storedBy order m ops).Pairwise (fun p p' => p.1 < p'.1)) : WrittenInOrder order m ops := by
  intro pre op post e _ p hp p' hp'
  rw [e, show pre ++ op :: post = pre ++ [op] ++ post by simp, storedBy_append] at h
  exact (List.pairwise_append.1 h).2.2 p hp p' hp'

/-- The records of a file are determined by what was stored. -/
theorem RecordsOf.same {us : Rat} {deltas : Bool} {ps : List (Int × State)} {f g : NCFile} {ts ts' : List Int}
    (hus : 0 < us) (hne : ps ≠ []) (hda : ∀ t q v, lastStored ps t q = some v → ∃ a, v = .da a)
    (a : RecordsOf us deltas ps f ts) (b : RecordsOf us deltas ps g ts') : SameRecords f g := by
  have hts : ts = ts' := by
    refine List.Perm.eq_of_pairwise (le := (· < ·)) (fun a b _ _ h1 h2 => by omega) a.increasing b.increasing ?_
    refine (List.perm_ext_iff_of_nodup (a.increasing.imp (fun h => by omega))
      (b.increasing.imp (fun h => by omega))).2 fun t => ?_
    rw [a.times, b.times]
  subst hts
  obtain ⟨p, hp⟩ := List.exists_mem_of_ne_nil ps hne
  have hpt := (a.times p.1).2 ⟨p, hp, rfl⟩
  refine ⟨a.ntime.trans b.ntime.symm, a.timeVar.trans b.timeVar.symm, ?_, ?_, ?_⟩
  · intro i hi
    rw [a.ntime] at hi
    obtain ⟨n, h1, h2⟩ := a.numbers i _ (List.getElem?_eq_getElem hi)
    obtain ⟨n', h1', h2'⟩ := b.numbers i _ (List.getElem?_eq_getElem hi)
    rw [h1, h1', h2.unique hus h2']
  · intro q
    rw [a.complete p.1 hpt, b.complete p.1 hpt]
  · intro q v w hv hw
    have key : ∀ (j : Nat) t, ts[j]? = some t → v.dims = w.dims ∧ v.attrs = w.attrs ∧ v.rows j = w.rows j := by
      intro j t hj
      have hs := (a.complete t (List.mem_iff_getElem?.2 ⟨j, hj⟩) q).1 (Dict.mem_keys_of_get? hv)
      obtain ⟨x, hx⟩ := Option.isSome_iff_exists.1 hs
      obtain ⟨y, rfl⟩ := hda t q x hx
      obtain ⟨v', a1, a2, a3, a4⟩ := a.values j t q y hj hx
      obtain ⟨w', b1, b2, b3, b4⟩ := b.values j t q y hj hx
      rw [hv] at a1
      rw [hw] at b1
      injection a1 with a1
      injection b1 with b1
      subst a1 b1
      exact ⟨a2.trans b2.symm, a3.trans b3.symm, a4.trans b4.symm⟩
    obtain ⟨j, hj⟩ := List.mem_iff_getElem?.1 hpt
    refine ⟨(key j _ hj).1, (key j _ hj).2.1, fun i hi => ?_⟩
    rw [a.ntime] at hi
    exact (key i _ (List.getElem?_eq_getElem hi)).2.2

/-- **C111.**  Two programs that store the same in new monitors with the same units, one of which
perhaps with `write_on_store`, end with the same records in their files, whenever they write. -/
theorem netcdf_when_written {L L' : String → Nat} {D D' : String → Option (List String × Dict String)} {order : SetOrder}
    {m m' : NCMon} {ops ops' : List NCOp} (h : GoodProgram L D order m ops) (h' : GoodProgram L' D' order m' ops')
    (hs : storedBy order m ops = storedBy order m' ops') (hne : storedBy order m ops ≠ [])
    (hu : m'.usPerUnit = m.usPerUnit) (hd : m'.deltas = m.deltas) :
    ∃ f f', (ncWrite (ncAfter order m ops).1).1.file = some f ∧ (ncWrite (ncAfter order m' ops').1).1.file = some f' ∧
      SameRecords f f' := by
  obtain ⟨f, ts, e, hr⟩ := (netcdf_file_of_program h).2 hne
  obtain ⟨f', ts', e', hr'⟩ := (netcdf_file_of_program h').2 (by rw [← hs]; exact hne)
  rw [hu, hd, ← hs] at hr'
  refine ⟨f, f', e, e', hr.same h.fresh.2.2 hne ?_ hr'⟩
  intro t q v hv
  obtain ⟨a, -, ha, -⟩ := h.same.value hv
  exact ⟨a, ha⟩

/-! ## Non-vacuity -/

namespace Demo

/-- Dates, in minutes. -/
def dateMon (onStore : Bool) : NCMon := ⟨none, [], 60000000, false, none, onStore, []⟩

/-- Two quantities for one time. -/
def dateT (t : Int) (v : Rat) : State := [("T", ncT v "K"), ("time", .time t)]
def dateU (t : Int) (v : Rat) : State := [("u", ncT v "m s^-1"), ("time", .time t)]
def dateTU (t : Int) (v : Rat) : State := [("T", ncT v "K"), ("u", ncT (v + 10) "m s^-1"), ("time", .time t)]

/-- Two states in one go; a state that is invalid by itself. -/
def atEnd : List NCOp := [.store (dateTU 90000000 5), .store [("T", ncT 1 "K")], .store (dateTU 700000000 6)]

/-- The same, written in between. -/
def inBetween : List NCOp := [.write, .store (dateTU 90000000 5), .write, .write, .store [("T", ncT 1 "K")],
  .store (dateTU 700000000 6), .write]

def dateD (q : String) : Option (List String × Dict String) :=
  if q = "T" then some (["x"], [("units", "K")]) else if q = "u" then some (["x"], [("units", "m s^-1")]) else none

theorem dateTU_same {ps : List (Int × State)} {t1 t2 : Int} {v1 v2 : Rat} (h : t1 ≠ t2)
    (hps : ps = [(t1, [("T", ncT v1 "K"), ("u", ncT (v1 + 10) "m s^-1")]),
      (t2, [("T", ncT v2 "K"), ("u", ncT (v2 + 10) "m s^-1")])]) : SameQuantities (fun _ => 2) dateD ps := by
  subst hps
  refine ⟨?_, ?_, ?_⟩
  · intro q hq p hp
    unfold dateD at hq
    split at hq
    · cases hq
    · split at hq
      · cases hq
      · rename_i n1 n2
        have n1' : ¬ "T" = q := fun e => n1 e.symm
        have n2' : ¬ "u" = q := fun e => n2 e.symm
        simp [lastStored, Dict.get?_cons, Dict.get?_nil, n1', n2']
  · intro q ds u hq p hp
    simp only [List.mem_cons, List.not_mem_nil, or_false] at hp
    unfold dateD at hq
    split at hq
    · rename_i e
      subst e
      injection hq with hq
      injection hq with hq1 hq2
      subst hq1 hq2
      rcases hp with rfl | rfl
      · exact ⟨⟨["x"], ⟨[2], fun i => v1 + (i.getD 0 0 : Nat)⟩, [("units", "K")]⟩,
          by simp [lastStored, Dict.get?_cons, h.symm, ncT], rfl, rfl, rfl⟩
      · exact ⟨⟨["x"], ⟨[2], fun i => v2 + (i.getD 0 0 : Nat)⟩, [("units", "K")]⟩,
          by simp [lastStored, Dict.get?_cons, ncT], rfl, rfl, rfl⟩
    · split at hq
      · rename_i e
        subst e
        injection hq with hq
        injection hq with hq1 hq2
        subst hq1 hq2
        rcases hp with rfl | rfl
        · exact ⟨⟨["x"], ⟨[2], fun i => v1 + 10 + (i.getD 0 0 : Nat)⟩, [("units", "m s^-1")]⟩,
            by simp [lastStored, Dict.get?_cons, h.symm, ncT], rfl, rfl, rfl⟩
        · exact ⟨⟨["x"], ⟨[2], fun i => v2 + 10 + (i.getD 0 0 : Nat)⟩, [("units", "m s^-1")]⟩,
            by simp [lastStored, Dict.get?_cons, ncT], rfl, rfl, rfl⟩
      · cases hq
  · intro q ds u hq
    unfold dateD at hq
    split at hq
    · injection hq with hq
      injection hq with hq1 hq2
      subst hq1 hq2
      exact ⟨by simp, by simp, by simp [Dict.keys]⟩
    · split at hq
      · injection hq with hq
        injection hq with hq1 hq2
        subst hq1 hq2
        exact ⟨by simp, by simp, by simp [Dict.keys]⟩
      · cases hq

theorem dateTU_ok (t : Int) (v : Rat) : StateOk (dateTU t v) := by
  refine ⟨show ["T", "u", "time"].Nodup by decide, ?_⟩
  intro n a h
  have := Dict.mem_of_get? h
  simp only [dateTU, ncT, List.mem_cons, Prod.mk.injEq, List.not_mem_nil, or_false] at this
  rcases this with ⟨_, h⟩ | ⟨_, h⟩ | ⟨_, h⟩ <;> cases h <;> rfl

theorem timeless_ok : StateOk [("T", ncT 1 "K")] := by
  refine ⟨show ["T"].Nodup by decide, ?_⟩
  intro n a h
  have := Dict.mem_of_get? h
  simp only [ncT, List.mem_cons, Prod.mk.injEq, List.not_mem_nil, or_false] at this
  cases this.2
  rfl

def dateStores : List (Int × State) :=
  [(90000000, [("T", ncT 5 "K"), ("u", ncT (5 + 10) "m s^-1")]), (700000000, [("T", ncT 6 "K"), ("u", ncT (6 + 10) "m s^-1")])]

theorem dateTU_prepare (b : Bool) (t : Int) (v : Rat) :
    ncPrepare order (dateMon b) (dateTU t v) = .ok (t, [("T", ncT v "K"), ("u", ncT (v + 10) "m s^-1")]) := rfl

theorem timeless_prepare (b : Bool) : ncPrepare order (dateMon b) [("T", ncT 1 "K")] = .error .keyError := rfl

theorem dates_good (b : Bool) (ops : List NCOp) (hops : ops = atEnd ∨ ops = inBetween) :
    storedBy order (dateMon b) ops = dateStores ∧ GoodProgram (fun _ => 2) dateD order (dateMon b) ops := by
  have h : storedBy order (dateMon b) ops = dateStores := by
    rcases hops with rfl | rfl <;>
    simp only [atEnd, inBetween, storedBy, dateTU_prepare, timeless_prepare] <;> rfl
  refine ⟨h, ⟨rfl, rfl, ?_⟩, ?_, ?_, .of_increasing ?_⟩
  · show (0 : Rat) < 60000000
    norm_num
  · intro s hs
    rcases hops with rfl | rfl <;>
    · simp only [atEnd, inBetween, List.mem_cons, NCOp.store.injEq, reduceCtorEq, List.not_mem_nil, or_false, false_or] at hs
      rcases hs with rfl | rfl | rfl
      · exact dateTU_ok _ _
      · exact timeless_ok
      · exact dateTU_ok _ _
  · rw [h]
    exact dateTU_same (by decide) rfl
  · rw [h]
    simp [dateStores]

end Demo

/-- `netcdf_when_written` applies: written once at the end, and written on every store or in between. -/
example (b : Bool) : ∃ f f', (ncWrite (ncAfter Demo.order (Demo.dateMon false) Demo.atEnd).1).1.file = some f ∧
    (ncWrite (ncAfter Demo.order (Demo.dateMon b) Demo.inBetween).1).1.file = some f' ∧ SameRecords f f' := by
  obtain ⟨h1, h2⟩ := Demo.dates_good false Demo.atEnd (.inl rfl)
  obtain ⟨h3, h4⟩ := Demo.dates_good b Demo.inBetween (.inr rfl)
  exact netcdf_when_written h2 h4 (h1.trans h3.symm) (by rw [h1]; simp [Demo.dateStores]) rfl rfl

/-- The file of `netcdf_file_of_program` has two records, 0 and 10 whole minutes after the first. -/
example : (∃ f ts, (ncWrite (ncAfter Demo.order (Demo.dateMon true) Demo.inBetween).1).1.file = some f ∧
      RecordsOf 60000000 false Demo.dateStores f ts) ∧
    Exc.test (.ok ((ncWrite (ncAfter Demo.order (Demo.dateMon true) Demo.inBetween).1).1.file.getD NCFile.empty))
      (fun f => f.ntime == 2 && f.times 0 == some 0 && f.times 1 == some 10) = true := by
  obtain ⟨h1, h2⟩ := Demo.dates_good true Demo.inBetween (.inr rfl)
  refine ⟨?_, by decide +kernel⟩
  have := (netcdf_file_of_program h2).2 (by rw [h1]; simp [Demo.dateStores])
  rw [h1] at this
  exact this

/-- **C111.**  What is stored in pieces for one time is one record if it is written at the end; with
`write_on_store` the second piece raises InvalidStateError. -/
theorem pieces_need_one_write :
    (ncWrite (ncAfter Demo.order (Demo.dateMon false) [.store (Demo.dateT 0 5), .store (Demo.dateU 0 6)]).1).2 = .ok () ∧
    (ncStore Demo.order (ncAfter Demo.order (Demo.dateMon true) [.store (Demo.dateT 0 5)]).1 (Demo.dateU 0 6)).2 =
      .error .invalidState := by
  constructor
  · rfl
  · rfl

/-- **C111.**  A second store for one time replaces the first; with `write_on_store` it is a second
record of the same time. -/
theorem second_store_is_second_record :
    ((ncWrite (ncAfter Demo.order (Demo.dateMon false) [.store (Demo.dateT 0 5), .store (Demo.dateT 0 6)]).1).1.file.getD
      NCFile.empty).ntime = 1 ∧
    Exc.test (.ok ((ncAfter Demo.order (Demo.dateMon true) [.store (Demo.dateT 0 5), .store (Demo.dateT 0 6)]).1.file.getD
      NCFile.empty)) (fun f => f.ntime == 2 && f.times 0 == f.times 1) = true := by
  constructor
  · rfl
  · decide +kernel

/-- **C111.**  Records are in order of time only within a write. -/
theorem earlier_store_is_later_record :
    Exc.test (.ok ((ncWrite (ncAfter Demo.order (Demo.dateMon false)
      [.store (Demo.dateT 120000000 5), .store (Demo.dateT 60000000 6)]).1).1.file.getD NCFile.empty))
      (fun f => f.times 0 == some 0 && f.times 1 == some 1) = true ∧
    Exc.test (.ok ((ncAfter Demo.order (Demo.dateMon true)
      [.store (Demo.dateT 120000000 5), .store (Demo.dateT 60000000 6)]).1.file.getD NCFile.empty))
      (fun f => f.times 0 == some 0 && f.times 1 == some (-1)) = true := by
  constructor <;> decide +kernel

end Verif
