import Verif.Spec.WriteFaults
import Verif.Props.NetCDFLengths
import Verif.Props.Exceptions
/-!
# C104: when `NetCDFMonitor.write` fails
-/

namespace Verif

/-! ## Arrays -/

theorem fits_broadcastable : ∀ {a s : List Nat}, List.Forall₂ (fun n m => n = m ∨ n = 1) a s →
    NDArray.broadcastable a s = true
  | [], [], _ => rfl
  | x :: a, y :: s, h => by
    cases h with
    | cons h1 h2 =>
      simp only [NDArray.broadcastable, Bool.and_eq_true, Bool.or_eq_true, beq_iff_eq]
      exact ⟨h1, fits_broadcastable h2⟩

theorem stretches_self (s : List Nat) : Stretches s s := ⟨0, FitsShape.refl s⟩

theorem assignTo_error {v : NDArray} {shape : List Nat} {e : Err} (h : assignTo v shape = .error e) :
    e = .valueError ∧ ¬ Stretches v.shape shape := by
  unfold assignTo at h
  by_cases hs : v.shape = shape
  · rw [if_pos hs] at h; cases h
  rw [if_neg hs] at h
  by_cases hl : shape.length < v.shape.length
  · rw [if_pos hl] at h
    refine ⟨(Except.error.inj h).symm, fun ⟨k, hk⟩ => ?_⟩
    have := hk.length_eq
    rw [List.length_append, List.length_replicate] at this
    omega
  · rw [if_neg hl] at h
    dsimp only at h
    rw [NDArray.broadcastTo] at h
    split at h
    · cases h
    · rename_i hb
      refine ⟨(Except.error.inj h).symm, fun ⟨k, hk⟩ => hb ?_⟩
      have := hk.length_eq
      rw [List.length_append, List.length_replicate] at this
      rw [show shape.length - v.shape.length = k by omega]
      exact fits_broadcastable hk

theorem assignTo_shape {v r : NDArray} {shape : List Nat} (h : assignTo v shape = .ok r) : r.shape = shape := by
  unfold assignTo at h
  by_cases hs : v.shape = shape
  · rw [if_pos hs] at h
    rw [← Except.ok.inj h, hs]
  rw [if_neg hs] at h
  by_cases hl : shape.length < v.shape.length
  · rw [if_pos hl] at h; cases h
  · rw [if_neg hl] at h
    dsimp only at h
    rw [NDArray.broadcastTo] at h
    split at h
    · rw [← Except.ok.inj h]
    · cases h

/-! ## combine_states -/

theorem combineStates_error {states : List State} {e : Err} (h : combineStates states = .error e) (hne : states ≠ [])
    (hn : ∀ s ∈ states, (Dict.keys s).Nodup)
    (hk : ∀ s ∈ states, ∀ s' ∈ states, ∀ q, q ∈ Dict.keys s ↔ q ∈ Dict.keys s') :
    (∃ s ∈ states, ∃ q t, Dict.get? s q = some (.time t) ∧ (e = .attributeError ∨ e = .typeError)) ∨
    (∃ s ∈ states, ∃ q a, Dict.get? s q = some (.da a) ∧ a.arr.shape = [] ∧ e = .indexError) ∨
    (∃ s ∈ states, ∃ s' ∈ states, ∃ q a b, Dict.get? s q = some (.da a) ∧ Dict.get? s' q = some (.da b) ∧
      ¬ Stretches a.arr.shape b.arr.shape ∧ e = .valueError) := by
  unfold combineStates at h
  cases states with
  | nil => exact absurd rfl hne
  | cons first rest =>
    dsimp only at h
    rcases Exc.bind_error_iff.1 h with hh | ⟨header, hh, h⟩
    · left
      unfold stackHeader at hh
      obtain ⟨⟨q, v⟩, hm, hv⟩ := mapM_error' hh
      have hg := Dict.get?_of_mem (hn _ List.mem_cons_self) hm
      dsimp only at hv
      cases v with
      | da a => cases hv
      | time t =>
        exact ⟨first, List.mem_cons_self, q, t, hg, .inl (Except.error.inj hv).symm⟩
    · obtain ⟨k1, k2⟩ := stackHeader_ok hh
      rcases Exc.bind_error_iff.1 h with hr | ⟨rows, hr, h⟩
      · obtain ⟨s, hs, hs'⟩ := mapM_error' hr
        obtain ⟨⟨q, v⟩, hm, hv⟩ := mapM_error' hs'
        have hg := Dict.get?_of_mem (hn _ hs) hm
        unfold stackRow at hv
        cases v with
        | time t =>
          dsimp only at hv
          exact .inl ⟨s, hs, q, t, hg, .inr (Except.error.inj hv).symm⟩
        | da a =>
          dsimp only at hv
          by_cases ha : a.arr.shape.length = 0
          · rw [if_pos ha] at hv
            exact .inr (.inl ⟨s, hs, q, a, hg, List.eq_nil_of_length_eq_zero ha, (Except.error.inj hv).symm⟩)
          rw [if_neg ha] at hv
          have hq : q ∈ Dict.keys header := by
            rw [k1]
            exact (hk _ hs _ List.mem_cons_self q).1 (Dict.mem_keys_of_get? hg)
          obtain ⟨hd, hhd⟩ := Dict.get?_of_mem_keys hq
          have hf : Dict.get? first q = some (.da hd) := by rw [k2, hhd]; rfl
          rw [show Dict.get header q = .ok hd from Dict.get_eq_ok.2 hhd, Exc.ok_bind] at hv
          by_cases hb : hd.arr.shape.length = 0
          · rw [if_pos hb] at hv
            exact .inr (.inl ⟨first, List.mem_cons_self, q, hd, hf, List.eq_nil_of_length_eq_zero hb,
              (Except.error.inj hv).symm⟩)
          rw [if_neg hb] at hv
          rcases Exc.bind_error_iff.1 hv with hv | ⟨r, -, hv⟩
          · obtain ⟨e1, e2⟩ := assignTo_error hv
            exact .inr (.inr ⟨s, hs, first, List.mem_cons_self, q, a, hd, hg, hf, e2, e1⟩)
          · cases hv
      · cases h

theorem combineStates_rows {states : List State} {stk : Dict NCStack} (h : combineStates states = .ok stk)
    (hn : ∀ s ∈ states, (Dict.keys s).Nodup) :
    ∀ n st, (n, st) ∈ stk → ∀ r ∈ st.rows, r.shape = st.shape := by
  unfold combineStates at h
  cases states with
  | nil => cases h
  | cons first rest =>
    dsimp only at h
    obtain ⟨header, hh, h⟩ := Exc.bind_ok_iff.1 h
    obtain ⟨rows, hr, h⟩ := Exc.bind_ok_iff.1 h
    have h := Except.ok.inj h
    subst h
    obtain ⟨k1, k2⟩ := stackHeader_ok hh
    intro n st hm r hr'
    obtain ⟨⟨n', hd⟩, hm', e⟩ := List.mem_map.1 hm
    injection e with e1 e2
    dsimp only at e1
    subst e1
    subst e2
    have hg : Dict.get? header n' = some hd := Dict.get?_of_mem (by rw [k1]; exact hn _ List.mem_cons_self) hm'
    obtain ⟨row, hrow, rfl⟩ := List.mem_map.1 hr'
    dsimp only
    cases hrg : Dict.get? row n' with
    | none => rfl
    | some rr =>
      obtain ⟨s, hs, hsr⟩ := mapM_ok_mem_right hr hrow
      obtain ⟨⟨q, v⟩, hv, hq⟩ := mapM_ok_mem_right hsr (Dict.mem_of_get? hrg)
      unfold stackRow at hq
      cases v with
      | time t => cases hq
      | da a =>
        dsimp only at hq
        split at hq
        · cases hq
        · obtain ⟨h', hh', hq⟩ := Exc.bind_ok_iff.1 hq
          split at hq
          · cases hq
          · obtain ⟨r', hr'', hq⟩ := Exc.bind_ok_iff.1 hq
            have hq := Except.ok.inj hq
            injection hq with q1 q2
            subst q1 q2
            have := Dict.get_eq_ok.1 hh'
            rw [hg] at this
            injection this with this
            subst this
            exact assignTo_shape hr''

/-! ## Dimensions and variables -/

/-- The fixed lengths in a file satisfy `P`. -/
def LensAre (P : String → Nat → Prop) (f : NCFile) : Prop := ∀ d n, f.dims.get? d = some (some n) → P d n

theorem ensureDim_error {f : NCFile} {d : String} {n : Nat} {e : Err} {P : String → Nat → Prop} (hP : LensAre P f)
    (ho : OnlyTime f) (h : (ensureDim f d (some n)).2 = .error e) :
    e = .ioError ∧ (d = "time" ∨ ∃ n', P d n' ∧ n ≠ n') := by
  unfold ensureDim at h
  cases hd : f.dims.get? d with
  | none => rw [hd] at h; cases h
  | some x =>
    rw [hd] at h
    cases x with
    | none =>
      dsimp only at h
      split at h
      · cases h
      · exact ⟨(Except.error.inj h).symm, .inl (ho d hd)⟩
    | some k =>
      dsimp only at h
      split at h
      · cases h
      · exact ⟨(Except.error.inj h).symm, .inr ⟨k, hP d k hd, by assumption⟩⟩

theorem ensureDim_lens {f : NCFile} {d : String} {n : Option Nat} {P : String → Nat → Prop} (hP : LensAre P f)
    (hn : ∀ k, n = some k → P d k) : LensAre P (ensureDim f d n).1 := by
  unfold ensureDim
  cases hd : f.dims.get? d with
  | some x =>
    rcases n with _ | n <;> rcases x with _ | x <;> exact hP
  | none =>
    intro d' n' h'
    dsimp only at h'
    rw [Dict.get?_set] at h'
    split at h'
    · rename_i e
      subst e
      exact hn n' (Option.some.inj h')
    · exact hP d' n' h'

theorem ensureDims_error {l : List (String × Nat)} {P : String → Nat → Prop} (hl : ∀ d n, (d, n) ∈ l → P d n) :
    ∀ {f : NCFile} (_ : LensAre P f) (_ : OnlyTime f),
      LensAre P (ensureDims f l).1 ∧
      ∀ e, (ensureDims f l).2 = .error e →
        e = .ioError ∧ ∃ d n, (d, n) ∈ l ∧ (d = "time" ∨ ∃ n', P d n' ∧ n ≠ n') := by
  induction l with
  | nil => exact fun hP _ => ⟨hP, fun e h => by cases h⟩
  | cons x l ih =>
    obtain ⟨d, n⟩ := x
    intro f hP ho
    have h1 := ensureDim_lens (d := d) (n := some n) hP fun k hk => by
      injection hk with hk
      subst hk
      exact hl d n List.mem_cons_self
    have h2 := ensureDim_onlyTime ho (d := d) (n := some n) (fun h => by cases h)
    have h3 := fun e => ensureDim_error (e := e) (d := d) (n := n) hP ho
    unfold ensureDims
    rcases hr : ensureDim f d (some n) with ⟨f1, r⟩
    rw [hr] at h1 h2 h3
    cases r with
    | error e =>
      refine ⟨h1, fun e' he => ?_⟩
      obtain ⟨a, b⟩ := h3 e' he
      exact ⟨a, d, n, List.mem_cons_self, b⟩
    | ok u =>
      obtain ⟨a, b⟩ := ih (fun d n hm => hl d n (List.mem_cons_of_mem _ hm)) h1 h2
      refine ⟨a, fun e he => ?_⟩
      obtain ⟨c, d', n', hm, hc⟩ := b e he
      exact ⟨c, d', n', List.mem_cons_of_mem _ hm, hc⟩

/-- What is wrong with a variable to be written to the file `f`. -/
inductive VarFault (P : String → Nat → Prop) (f : NCFile) (q : String) (s : NCStack) : Err → Prop
  | dims {v : NCVar} : f.vars.get? q = some v → v.dims ≠ "time" :: s.dims → VarFault P f q s .ioError
  | attrs {v : NCVar} {k u : String} : f.vars.get? q = some v → (k, u) ∈ s.attrs → v.attrs.get? k ≠ some u →
      VarFault P f q s .invalidState
  | shape {v : NCVar} : f.vars.get? q = some v → v.dims = "time" :: s.dims →
      ¬ Stretches s.shape (rowShape f s.dims) → VarFault P f q s .valueError
  | lengths {d : String} {n : Nat} : f.vars.get? q = none → (d, n) ∈ s.dims.zip s.shape →
      (d = "time" ∨ ∃ n', P d n' ∧ n ≠ n') → VarFault P f q s .ioError

theorem ensureVar_fault {P : String → Nat → Prop} {f : NCFile} {q : String} {s : NCStack} (hP : LensAre P f)
    (ho : OnlyTime f) (ht : f.dims.get? "time" = some none) (hs : ∀ d n, (d, n) ∈ s.dims.zip s.shape → P d n) :
    LensAre P (ensureVar f q s).1 ∧ ∀ e, (ensureVar f q s).2 = .error e → VarFault P f q s e := by
  unfold ensureVar
  cases hv : f.vars.get? q with
  | some v =>
    refine ⟨hP, fun e he => ?_⟩
    dsimp only at he
    split at he
    · unfold attrsCompatible at he
      split at he
      · cases he
      · rename_i ha
        rw [← Except.error.inj he]
        simp only [List.all_eq_true, beq_iff_eq] at ha
        push Not at ha
        obtain ⟨⟨k, u⟩, hm, hne⟩ := ha
        exact .attrs hv hm hne
    · rw [← Except.error.inj he]
      exact .dims hv (by assumption)
  | none =>
    have h0 : ensureDim f "time" none = (f, .ok ()) := by
      unfold ensureDim
      rw [ht]
    dsimp only
    rw [h0]
    dsimp only
    obtain ⟨a, b⟩ := ensureDims_error hs hP ho
    rcases hr : ensureDims f (s.dims.zip s.shape) with ⟨f1, r⟩
    rw [hr] at a b
    cases r with
    | error e =>
      refine ⟨a, fun e' he => ?_⟩
      obtain ⟨e1, d, n, hm, hc⟩ := b e' he
      subst e1
      exact .lengths hv hm hc
    | ok u => exact ⟨a, fun e' he => by cases he⟩

theorem writeRows_error {start : Nat} {f : NCFile} {q : String} {s : NCStack} {v : NCVar} {e : Err}
    (hv : f.vars.get? q = some v) (hrows : ∀ r ∈ s.rows, r.shape = s.shape)
    (h : (writeRows f start q s).2 = .error e) : e = .valueError ∧ ¬ Stretches s.shape (rowShape f v.dims.tail) := by
  unfold writeRows at h
  rw [hv] at h
  dsimp only at h
  cases hm : s.rows.mapM (fun r => assignTo r (rowShape f v.dims.tail)) with
  | ok rows => rw [hm] at h; cases h
  | error e' =>
    rw [hm] at h
    obtain ⟨r, hr, hr'⟩ := mapM_error' hm
    obtain ⟨a, b⟩ := assignTo_error hr'
    rw [hrows r hr] at b
    exact ⟨(Except.error.inj h).symm.trans a, b⟩

theorem writeRows_lens {P : String → Nat → Prop} {start : Nat} {f : NCFile} {q : String} {s : NCStack}
    (hP : LensAre P f) : LensAre P (writeRows f start q s).1 := by
  intro d n h
  rw [(writeRows_keeps start f q s).2.1] at h
  exact hP d n h

theorem varFault_mono {P : String → Nat → Prop} {start : Nat} {f g : NCFile} {q : String} {s : NCStack} {e : Err}
    (hf : f.WF) (hk : FileKeeps start f g) (hv : g.vars.get? q = f.vars.get? q) (h : VarFault P g q s e) :
    VarFault P f q s e := by
  cases h with
  | dims h1 h2 => exact .dims (hv ▸ h1) h2
  | attrs h1 h2 h3 => exact .attrs (hv ▸ h1) h2 h3
  | @shape v h1 h2 h3 =>
    have h1 := hv ▸ h1
    refine .shape h1 h2 ?_
    obtain ⟨ds, hds, hex⟩ := hf q v h1
    rw [h2] at hds
    injection hds with _ hds
    subst hds
    rwa [hk.rowShape hex] at h3
  | lengths h1 h2 h3 => exact .lengths (hv ▸ h1) h2 h3

theorem writeVars_error {P : String → Nat → Prop} {start : Nat} {l : Dict NCStack} :
    ∀ {f : NCFile} (_ : (Dict.keys l).Nodup) (_ : f.WF) (_ : LensAre P f) (_ : OnlyTime f)
      (_ : f.dims.get? "time" = some none)
      (_ : ∀ n s, (n, s) ∈ l → s.dims.length = s.shape.length ∧ (∀ r ∈ s.rows, r.shape = s.shape) ∧
        ∀ d k, (d, k) ∈ s.dims.zip s.shape → P d k) {e : Err} (_ : (writeVars start l f).2 = .error e),
      ∃ n s, (n, s) ∈ l ∧ VarFault P f n s e := by
  induction l with
  | nil => intro f _ _ _ _ _ _ e h; cases h
  | cons x l ih =>
    obtain ⟨n, s⟩ := x
    intro f hn hf hP ho ht hl e h
    rw [Dict.keys_cons, List.nodup_cons] at hn
    obtain ⟨l1, l2, l3⟩ := hl n s List.mem_cons_self
    obtain ⟨a1, a2⟩ := ensureVar_fault (q := n) hP ho ht l3
    have a3 := ensureVar_onlyTime ho n s
    have a4 := ensureVar_wf hf n s l1
    have a5 := ensureVar_keeps start f n s
    have a6 := ensureVar_ok (f := f) (n := n) (s := s)
    unfold writeVars at h
    rcases hr : ensureVar f n s with ⟨f1, r⟩
    rw [hr] at h a1 a2 a3 a4 a5 a6
    cases r with
    | error e' => exact ⟨n, s, List.mem_cons_self, a2 e h⟩
    | ok u =>
      dsimp only at h a1 a2 a3 a4 a5 a6
      obtain ⟨v, v1, v2, v3, v4⟩ := a6 rfl
      have b1 : LensAre P (writeRows f1 start n s).1 := writeRows_lens a1
      have b2 := writeRows_keeps start f1 n s
      have b3 := writeRows_wf a4 start n s
      have b4 := fun e => writeRows_error (start := start) (e := e) v1 l2
      rcases hr2 : writeRows f1 start n s with ⟨f2, r2⟩
      rw [hr2] at h b1 b2 b3 b4
      cases r2 with
      | error e' =>
        obtain ⟨c1, c2⟩ := b4 e h
        subst c1
        rw [v2, List.tail_cons] at c2
        rcases v4 with v4 | ⟨-, -, v4⟩
        · refine ⟨n, s, List.mem_cons_self, .shape v4 v2 ?_⟩
          obtain ⟨ds, hds, hex⟩ := hf n v v4
          rw [v2] at hds
          injection hds with _ hds
          subst hds
          rwa [a5.1.rowShape hex] at c2
        · rw [(v4 l1).2] at c2
          exact absurd (stretches_self _) c2
      | ok u =>
        dsimp only at h b1 b2 b3
        have hk := a5.1.trans b2.1
        obtain ⟨n', s', hm, hfault⟩ := ih hn.2 b3 b1 (by
            intro d hd
            rw [b2.2.1] at hd
            exact a3 d hd) (hk.dims _ _ ht) (fun n s hm => hl n s (List.mem_cons_of_mem _ hm)) h
        have hne : n' ≠ n := by
          rintro rfl
          exact hn.1 (Dict.mem_keys_of_mem (kv := (n', s')) hm)
        exact ⟨n', s', List.mem_cons_of_mem _ hm, varFault_mono hf hk
          ((b2.2.2 n' hne).trans (a5.2 n' hne)) hfault⟩

/-! ## write -/

theorem ensureTime_error {us : Rat} {deltas : Bool} {f : NCFile} {t : Int} :
    (∀ e, (ensureTime us deltas f t).2 = .error e →
      e = .ioError ∧ (∃ n, f.dims.get? "time" = some (some n)) ∧ (ensureTime us deltas f t).1 = f) ∧
    ((ensureTime us deltas f t).2 = .ok () → (∀ n, f.dims.get? "time" ≠ some (some n)) ∧
      (ensureTime us deltas f t).1.dims.get? "time" = some none ∧
      ∀ d, d ≠ "time" → (ensureTime us deltas f t).1.dims.get? d = f.dims.get? d) := by
  unfold ensureTime ensureDim
  cases hd : f.dims.get? "time" with
  | none =>
    dsimp only
    refine ⟨fun e he => ?_, fun _ => ⟨fun n h => (by cases h), ?_, fun d hne => ?_⟩⟩
    · cases hv : f.timeVar <;> rw [hv] at he <;> cases he
    · cases hv : f.timeVar <;> exact (Dict.get?_set _ _ _ _).trans (if_pos rfl)
    · cases hv : f.timeVar <;> exact Dict.get?_set_ne _ _ (Ne.symm hne)
  | some x =>
    cases x with
    | some n =>
      dsimp only
      exact ⟨fun e he => ⟨(Except.error.inj he).symm, ⟨n, rfl⟩, rfl⟩, fun h => by cases h⟩
    | none =>
      dsimp only
      refine ⟨fun e he => ?_, fun _ => ⟨fun n h => (by cases h), ?_, fun d hne => ?_⟩⟩
      · cases hv : f.timeVar <;> rw [hv] at he <;> cases he
      · cases hv : f.timeVar <;> exact hd
      · cases hv : f.timeVar <;> rfl

theorem checkKeys_batch {c : NCCache} {ps : List (Int × State)} {f : NCFile} (hc : CacheOf c ps)
    (hf : (Dict.keys f.vars).Nodup) : ncCheckKeys c f = .ok () ↔ ¬ InconsistentBatch f ps := by
  rw [(ncCheckKeys_iff (f := f) hc.keys hf).1]
  have hget : ∀ t s, (t, s) ∈ c → (∃ p ∈ ps, p.1 = t) ∧ ∀ q, (lastStored ps t q).isSome ↔ q ∈ Dict.keys s := by
    intro t s hm
    refine ⟨(hc.times t).1 (List.mem_map.2 ⟨_, hm, rfl⟩), fun q => ?_⟩
    rw [← hc.vals, cacheGet_of_mem hc.nodup hm]
    exact Dict.get?_isSome_iff _ _
  have hback : ∀ p ∈ ps, ∃ s, (p.1, s) ∈ c := by
    intro p hp
    obtain ⟨⟨t, s⟩, hts, e⟩ := List.mem_map.1 ((hc.times p.1).2 ⟨p, hp, rfl⟩)
    dsimp only at e
    subst e
    exact ⟨s, hts⟩
  constructor
  · rintro ⟨same, sameFile⟩ (⟨p, hp, p', hp', q, h1, h2⟩ | ⟨hv, p, hp, q, hq⟩)
    · obtain ⟨s, hs⟩ := hback p hp
      obtain ⟨s', hs'⟩ := hback p' hp'
      exact h2 (((hget _ _ hs').2 q).2 ((same _ _ _ _ hs hs' q).1 (((hget _ _ hs).2 q).1 h1)))
    · obtain ⟨s, hs⟩ := hback p hp
      exact hq (((hget _ _ hs).2 q).trans (sameFile hv _ _ hs q))
  · intro hcons
    refine ⟨?_, ?_⟩
    · intro t s t' s' hts hts' q
      obtain ⟨⟨p, hp, rfl⟩, hq⟩ := hget t s hts
      obtain ⟨⟨p', hp', rfl⟩, hq'⟩ := hget t' s' hts'
      rw [← hq, ← hq']
      constructor
      · intro h1
        by_contra h2
        exact hcons (.inl ⟨p, hp, p', hp', q, h1, h2⟩)
      · intro h1
        by_contra h2
        exact hcons (.inl ⟨p', hp', p, hp, q, h1, h2⟩)
    · intro hv t s hts q
      obtain ⟨⟨p, hp, rfl⟩, hq⟩ := hget t s hts
      rw [← hq]
      by_contra h2
      exact hcons (.inr ⟨hv, p, hp, q, h2⟩)

theorem RecordsKept.refl (f : NCFile) : RecordsKept f f :=
  ⟨Nat.le_refl _, fun _ _ => rfl, fun _ v h => ⟨v, h, rfl, rfl, fun _ _ => rfl⟩⟩

/-- A fault of a variable in terms of the file and the states. -/
theorem varFault_explained {f g : NCFile} {ps : List (Int × State)} {us : Rat} {deltas : Bool} (hf : f.Valid us deltas)
    (hv : g.vars = f.vars) (hg : ∀ d, d ≠ "time" → g.dims.get? d = f.dims.get? d) {t : Int} {q : String}
    {st : NCStack} {a : DataArray} (ha : ToWrite ps t q a) (h1 : st.dims = a.dims) (h2 : st.shape = a.arr.shape)
    (h3 : st.attrs = a.attrs) {e : Err} (h : VarFault (HasLength f ps) g q st e) : WriteFault f ps e := by
  have hlen : ∀ d n, (d, n) ∈ st.dims.zip st.shape → d ∈ a.dims := by
    intro d n hm
    rw [h1] at hm
    exact (List.of_mem_zip hm).1
  cases h with
  | dims k1 k2 => exact .dims ha (hv ▸ k1) (h1 ▸ k2)
  | attrs k1 k2 k3 => exact .attrs ha (hv ▸ k1) (h3 ▸ k2) k3
  | @shape v k1 k2 k3 =>
    by_cases ht : "time" ∈ a.dims
    · exact .timeDim ha ht (.inr rfl)
    have k1 : f.vars.get? q = some v := hv ▸ k1
    obtain ⟨ds, hds, hex⟩ := hf.wf q v k1
    rw [k2] at hds
    injection hds with _ hds
    subst hds
    refine .fileShape (ns := rowShape g st.dims) ha k1 (by rw [k2, h1]) ?_ (by rwa [h2] at k3)
    rw [h1] at hex ⊢
    rw [rowShape_eq, List.forall₂_map_right_iff, List.forall₂_same]
    intro d hd
    have hne : d ≠ "time" := by rintro rfl; exact ht hd
    obtain ⟨x, hx⟩ := Dict.get?_of_mem_keys (hex d hd)
    cases x with
    | none => exact absurd (hf.unlimited d hx) hne
    | some n =>
      rw [hx]
      unfold dimLen
      rw [hg d hne, hx]
      rfl
  | lengths k1 k2 k3 =>
    rcases k3 with rfl | ⟨n', k3, k4⟩
    · exact .timeDim ha (hlen _ _ k2) (.inl rfl)
    · rw [h1, h2] at k2
      exact .lengths ha (hv ▸ k1) k2 k3 k4

/-- The part of `write` that changes the file: why it fails, and what it has changed then. -/
theorem writeFile_fails {us : Rat} {deltas : Bool} {c : NCCache} {ps : List (Int × State)} {f : NCFile}
    (hc : CacheOf c ps) (hok : ∀ t s, (t, s) ∈ c → StateOk s) (hf : f.Valid us deltas) {e : Err}
    (h : (ncWriteFile us deltas c f).2 = .error e) :
    WriteFault f ps e ∧ (NoticedFirst f ps → (ncWriteFile us deltas c f).1 = f) ∧
    (¬ NoticedFirst f ps → ∃ ts : List Int, ts.Pairwise (· < ·) ∧ (∀ t, t ∈ ts ↔ ∃ p ∈ ps, p.1 = t) ∧
      (ncWriteFile us deltas c f).1.ntime = f.ntime + ts.length ∧
      ∀ j, j < ts.length → ((ncWriteFile us deltas c f).1.times (f.ntime + j)).isSome) ∧
    RecordsKept f (ncWriteFile us deltas c f).1 := by
  have hkeys := checkKeys_batch (f := f) hc hf.nodup
  have hkeys' := ncCheckKeys_iff (f := f) hc.keys hf.nodup
  unfold ncWriteFile at h ⊢
  cases hk : ncCheckKeys c f with
  | error e' =>
    rw [hk] at h
    dsimp only at h ⊢
    have h := Except.error.inj h
    subst h
    have hi : InconsistentBatch f ps := by
      by_contra hi
      rw [hkeys.2 hi] at hk
      cases hk
    have := hkeys'.2 e' hk
    subst this
    exact ⟨.quantities hi, fun _ => rfl, fun hn => absurd (.inr (.inl hi)) hn, RecordsKept.refl f⟩
  | ok u =>
    rw [hk] at h
    dsimp only at h ⊢
    have hcons := hkeys.1 hk
    obtain ⟨same, sameFile⟩ := hkeys'.1.1 hk
    have hperm := ncSort_perm c
    have hinc := ncSort_increasing hc.nodup
    cases hs : ncSort c with
    | nil =>
      rw [hs] at h
      dsimp only at h ⊢
      have h := Except.error.inj h
      subst h
      have hps : ps = [] := by
        have hcn := ncSort_nil.1 hs
        subst hcn
        cases ps with
        | nil => rfl
        | cons p ps => exact absurd ((hc.times p.1).2 ⟨p, List.mem_cons_self, rfl⟩) (by simp)
      exact ⟨.nothing hps, fun _ => rfl, fun hn => absurd (.inl hps) hn, RecordsKept.refl f⟩
    | cons x rest =>
      obtain ⟨t0, s0⟩ := x
      rw [hs] at h hperm hinc
      dsimp only at h ⊢
      have hpsne : ps ≠ [] := by
        rintro rfl
        have := (hc.times t0).1 (List.mem_map.2 ⟨(t0, s0), hperm.mem_iff.1 List.mem_cons_self, rfl⟩)
        obtain ⟨p, hp, -⟩ := this
        cases hp
      obtain ⟨e1, e2, e3, e4, e5, e6, e7, e8⟩ := ensureTime_spec us deltas f t0
      obtain ⟨g1, g2⟩ := ensureTime_error (us := us) (deltas := deltas) (f := f) (t := t0)
      have hvt := ensureTime_valid hf t0
      rcases hr : ensureTime us deltas f t0 with ⟨f1, r⟩
      rw [hr] at h e1 e2 e3 e4 e5 e6 e7 e8 hvt g1 g2
      cases r with
      | error e' =>
        dsimp only at h g1 ⊢
        have h := Except.error.inj h
        subst h
        obtain ⟨a1, ⟨n, a2⟩, a3⟩ := g1 _ rfl
        subst a1 a3
        exact ⟨.fixedTime a2, fun _ => rfl, fun hn => absurd (.inr (.inr ⟨n, a2⟩)) hn, RecordsKept.refl _⟩
      | ok u =>
        dsimp only at h e1 e2 e3 e4 e5 e6 e7 e8 hvt g2 ⊢
        obtain ⟨a1, a2, a3⟩ := g2 rfl
        have hnot : ¬ NoticedFirst f ps := by
          rintro (hn | hn | ⟨n, hn⟩)
          · exact hpsne hn
          · exact hcons hn
          · exact a1 n hn
        generalize hL : (t0, s0) :: rest = L at *
        have hLne : L ≠ [] := by rw [← hL]; exact List.cons_ne_nil _ _
        have hmemL : ∀ t s, (t, s) ∈ L ↔ (t, s) ∈ c := fun t s => hperm.mem_iff
        have hstates : ∀ s, s ∈ L.map (·.2) ↔ ∃ t, (t, s) ∈ c := by
          intro s
          rw [List.mem_map]
          constructor
          · rintro ⟨⟨t, s'⟩, hm, rfl⟩
            exact ⟨t, (hmemL _ _).1 hm⟩
          · rintro ⟨t, hm⟩
            exact ⟨(t, s), (hmemL _ _).2 hm, rfl⟩
        have hn : ∀ s ∈ L.map (·.2), (Dict.keys s).Nodup := by
          intro s hs'
          obtain ⟨t, hm⟩ := (hstates s).1 hs'
          exact hc.keys t s hm
        have hk' : ∀ s ∈ L.map (·.2), ∀ s' ∈ L.map (·.2), ∀ q, q ∈ Dict.keys s ↔ q ∈ Dict.keys s' := by
          intro s hs' s' hs'' q
          obtain ⟨t, hm⟩ := (hstates s).1 hs'
          obtain ⟨t', hm'⟩ := (hstates s').1 hs''
          exact same t s t' s' hm hm' q
        have hlast : ∀ s ∈ L.map (·.2), ∃ t, ∀ q, Dict.get? s q = lastStored ps t q := by
          intro s hs'
          obtain ⟨t, hm⟩ := (hstates s).1 hs'
          refine ⟨t, fun q => ?_⟩
          rw [← hc.vals, cacheGet_of_mem hc.nodup hm]
          rfl
        have htimes : ∀ t, t ∈ L.map (·.1) ↔ ∃ p ∈ ps, p.1 = t := by
          intro t
          rw [← hc.times]
          exact (hperm.map _).mem_iff
        have happ : ∀ j, j < (L.map (·.1)).length →
            ((appendTimes us deltas f1 (L.map (·.1))).times (f.ntime + j)).isSome := by
          intro j hj
          simp only [appendTimes, e1]
          rw [if_pos ⟨by omega, by omega⟩, Nat.add_sub_cancel_left, List.getElem?_eq_getElem hj]
          rfl
        have hkept : RecordsKept f (appendTimes us deltas f1 (L.map (·.1))) := by
          refine ⟨by simp only [appendTimes, e1]; omega, fun i hi => ?_, fun q v hv => ?_⟩
          · simp only [appendTimes, e1, e2]
            rw [if_neg (by omega)]
          · exact ⟨v, by show f1.vars.get? q = some v; rw [e3]; exact hv, rfl, rfl, fun _ _ => rfl⟩
        have hnt : (appendTimes us deltas f1 (L.map (·.1))).ntime = f.ntime + (L.map (·.1)).length := by
          simp only [appendTimes, e1]
        have hv2 := appendTimes_valid hvt (L.map (·.1))
        cases hcs : combineStates (L.map (·.2)) with
        | error e' =>
          rw [hcs] at h
          dsimp only at h ⊢
          have h := Except.error.inj h
          subst h
          refine ⟨?_, fun hn => absurd hn hnot, fun _ => ⟨_, hinc, htimes, hnt, happ⟩, hkept⟩
          rcases combineStates_error hcs (by simpa using hLne) hn hk' with
            ⟨s, hs', q, t', hq, he⟩ | ⟨s, hs', q, a, hq, ha, rfl⟩ | ⟨s, hs', s', hs'', q, a, b, ha, hb, hst, rfl⟩
          · obtain ⟨t, ht⟩ := hlast s hs'
            exact .notArray ((ht q).symm.trans hq) he
          · obtain ⟨t, ht⟩ := hlast s hs'
            exact .scalar ((ht q).symm.trans hq) ha
          · obtain ⟨t, ht⟩ := hlast s hs'
            obtain ⟨t', ht'⟩ := hlast s' hs''
            exact .shapes ((ht q).symm.trans ha) ((ht' q).symm.trans hb) hst
        | ok stk =>
          rw [hcs] at h
          dsimp only at h ⊢
          obtain ⟨n1, n2, n3, n4⟩ := combineStates_ok hcs hn hk'
          have hl := combineStates_len hcs (fun s hs' => by
            obtain ⟨t, hm⟩ := (hstates s).1 hs'
            exact hok t s hm)
          have hrows := combineStates_rows hcs hn
          have hfrom : ∀ q st, (q, st) ∈ stk → ∃ t a, ToWrite ps t q a ∧ st.dims = a.dims ∧ st.shape = a.arr.shape ∧
              st.attrs = a.attrs := by
            intro q st hm
            obtain ⟨hd, ⟨s', hs', hg⟩, d1, d2, d3, -⟩ := n4 q st (Dict.get?_of_mem n1 hm)
            obtain ⟨t, ht⟩ := hlast s' hs'
            exact ⟨t, hd, (ht q).symm.trans hg, d1, d2, d3⟩
          have hkk := (writeVars_keeps f1.ntime stk (appendTimes us deltas f1 (L.map (·.1)))).1
          refine ⟨?_, fun hn => absurd hn hnot, fun _ => ⟨_, hinc, htimes, by rw [hkk.ntime, hnt], ?_⟩, ?_⟩
          · have hlens : LensAre (HasLength f ps) (appendTimes us deltas f1 (L.map (·.1))) := by
              intro d n hd
              have hd' : f1.dims.get? d = some (some n) := hd
              by_cases hne : d = "time"
              · subst hne
                rw [a2] at hd'
                cases hd'
              · rw [a3 d hne] at hd'
                exact .inl hd'
            obtain ⟨q, st, hm, hfault⟩ := writeVars_error (P := HasLength f ps) n1 hv2.wf hlens hv2.unlimited a2 (by
              intro q st hm
              obtain ⟨t, a, ha, h1, h2, h3⟩ := hfrom q st hm
              refine ⟨hl q st hm, hrows q st hm, fun d k hdk => .inr ⟨t, q, a, ha, ?_⟩⟩
              rwa [h1, h2] at hdk) h
            obtain ⟨t, a, ha, h1, h2, h3⟩ := hfrom q st hm
            exact varFault_explained hf (g := appendTimes us deltas f1 (L.map (·.1))) e3 a3 ha h1 h2 h3 hfault
          · intro j hj
            rw [hkk.times]
            exact happ j hj
          · refine ⟨by rw [hkk.ntime]; exact hkept.ntime, fun i hi => by rw [hkk.times]; exact hkept.times i hi, ?_⟩
            intro q v hv
            obtain ⟨v1, w1, w2, w3, w4⟩ := hkept.vars q v hv
            obtain ⟨v2, x1, x2, x3, x4⟩ := hkk.vars q v1 w1
            exact ⟨v2, x1, x2.trans w2, x3.trans w3, fun i hi => (x4 i (by rw [e1]; exact hi)).trans (w4 i hi)⟩

/-! ## store -/

theorem aliasPass_names {long short : String} {N : String → Prop} {l : List String} :
    ∀ {cs : State} (_ : (Dict.keys cs).Nodup) (_ : l.Nodup) (_ : ∀ n ∈ l, N n ∧ n ∈ Dict.keys cs)
      (_ : ∀ k ∈ Dict.keys cs, k ∈ l ∨ ∃ n, N n ∧ ncRename long short n = k),
      (∀ e, ncAliasPass long short l cs = .error e → e = .valueError ∧ ∃ n, N n ∧ ncRename long short n = "") ∧
      ∀ cs', ncAliasPass long short l cs = .ok cs' →
        ∀ k ∈ Dict.keys cs', ∃ n, N n ∧ ncRename long short n = k := by
  induction l with
  | nil =>
    intro cs _ _ _ hk
    refine ⟨fun e h => (by cases h), fun cs' h k hm => ?_⟩
    have h := Except.ok.inj h
    subst h
    rcases hk k hm with hk | hk
    · cases hk
    · exact hk
  | cons a l ih =>
    intro cs hn hl hN hk
    rw [List.nodup_cons] at hl
    unfold ncAliasPass
    obtain ⟨ha, hak⟩ := hN a List.mem_cons_self
    by_cases hp : pyIn long a = true
    · rw [if_pos hp]
      have hra : ncRename long short a = pyReplace a long short := by unfold ncRename; rw [if_pos hp]
      by_cases he : pyReplace a long short = ""
      · rw [if_pos he]
        exact ⟨fun e h => ⟨(Except.error.inj h).symm, a, ha, hra.trans he⟩, fun cs' h => by cases h⟩
      rw [if_neg he]
      obtain ⟨v, hv⟩ := Dict.get?_of_mem_keys hak
      rw [hv]
      dsimp only
      have hn' : (Dict.keys (Dict.erase cs a)).Nodup := by rw [Dict.keys_erase]; exact hn.erase a
      refine ih (Dict.nodup_keys_set hn' _ _) hl.2 ?_ ?_
      · intro n hm
        obtain ⟨h1, h2⟩ := hN n (List.mem_cons_of_mem _ hm)
        refine ⟨h1, (Dict.mem_keys_set _ _ _ _).2 (.inr ?_)⟩
        rw [Dict.keys_erase]
        exact (List.mem_erase_of_ne (by rintro rfl; exact hl.1 hm)).2 h2
      · intro k hm
        rcases (Dict.mem_keys_set _ _ _ _).1 hm with rfl | hm
        · exact .inr ⟨a, ha, hra⟩
        · rw [Dict.keys_erase, hn.mem_erase_iff] at hm
          rcases hk k hm.2 with hk | hk
          · rcases List.mem_cons.1 hk with rfl | hk
            · exact absurd rfl hm.1
            · exact .inl hk
          · exact .inr hk
    · rw [if_neg hp]
      refine ih hn hl.2 (fun n hm => hN n (List.mem_cons_of_mem _ hm)) ?_
      intro k hm
      rcases hk k hm with hk | hk
      · rcases List.mem_cons.1 hk with rfl | hk
        · exact .inr ⟨k, ha, by unfold ncRename; rw [if_neg hp]⟩
        · exact .inl hk
      · exact .inr hk

theorem aliases_error {al : Dict String} : ∀ {N : String → Prop} {cs : State} (_ : (Dict.keys cs).Nodup)
    (_ : ∀ k ∈ Dict.keys cs, N k) {e : Err} (_ : ncAliases al cs = .error e),
    e = .valueError ∧ ∃ pre long short post n, al = pre ++ (long, short) :: post ∧ N n ∧
      ncRename long short (finalName pre n) = "" := by
  induction al with
  | nil => intro N cs _ _ e h; cases h
  | cons x al ih =>
    obtain ⟨long, short⟩ := x
    intro N cs hn hN e h
    unfold ncAliases at h
    obtain ⟨p1, p2⟩ := aliasPass_names (long := long) (short := short) (N := N) (l := Dict.keys cs) hn hn
      (fun n hm => ⟨hN n hm, hm⟩) (fun k hk => .inl hk)
    rcases Exc.bind_error_iff.1 h with h | ⟨cs', h', h⟩
    · obtain ⟨a, n, b, c⟩ := p1 e h
      exact ⟨a, [], long, short, al, n, rfl, b, c⟩
    · obtain ⟨a, pre, l', s', post, n, b, ⟨n0, c, c'⟩, d⟩ := ih (N := fun k => ∃ n, N n ∧ ncRename long short n = k)
        (ncAliasPass_vals hn h').1 (p2 cs' h') h
      subst c'
      exact ⟨a, (long, short) :: pre, l', s', post, n0, by rw [b]; rfl, c, d⟩

/-- **C104.**  What `store` has to do before it may write fails only for a fault of the
state, and the monitor is unchanged then. -/
theorem prepare_fails {order : SetOrder} {m : NCMon} {s : State} (hs : StateOk s) {e : Err}
    (h : ncPrepare order m s = .error e) : StoreFault m s e := by
  by_cases hempty : Selected m.storeNames s ""
  · have := congrArg Prod.snd (netcdf_empty_name order m s hs hempty)
    unfold ncStore at this
    rw [h] at this
    have this := Except.error.inj this
    subst this
    exact .emptyName hempty
  have hall := netcdf_aliases_partial order m s hs
  have hmem := mem_select (order := order) (names := m.storeNames) hs.1
  obtain ⟨sn, -⟩ := ncSelect_spec order m.storeNames hs.1
  have key : ∀ t, Dict.get? s "time" = some (.time t) → StoreFault m s .keyError := by
    intro t ht
    apply StoreFault.noTime
    by_contra hc
    push Not at hc
    obtain ⟨cs, hcs, -⟩ := hall t ht hempty hc.2.2 hc.2.1
    rw [h] at hcs
    cases hcs
  unfold ncPrepare at h
  dsimp only at h
  rw [if_neg (fun hc => hempty ((hmem "").2 hc))] at h
  rcases Exc.bind_error_iff.1 h with h | ⟨cs, hcs, h⟩
  · obtain ⟨a, pre, long, short, post, n, b, c, d⟩ := aliases_error (N := Selected m.storeNames s) sn
      (fun k hk => (hmem k).2 hk) h
    subst a
    exact .emptyAlias b c d
  · cases ht : Dict.get? s "time" with
    | none =>
      have : e = .keyError := by
        cases hc : Dict.get? cs "time" with
        | none => rw [hc] at h; exact (Except.error.inj h).symm
        | some v =>
          rw [hc] at h
          unfold State.time at h
          dsimp only at h
          rw [ht] at h
          exact (Except.error.inj h).symm
      subst this
      exact .noTime (.inl ht)
    | some v =>
      cases v with
      | time t =>
        have : e = .keyError := by
          cases hc : Dict.get? cs "time" with
          | none => rw [hc] at h; exact (Except.error.inj h).symm
          | some v =>
            rw [hc] at h
            unfold State.time at h
            dsimp only at h
            rw [ht] at h
            cases h
        subst this
        exact key t ht
      | da a =>
        cases hc : Dict.get? cs "time" with
        | some v =>
          rw [hc] at h
          unfold State.time at h
          dsimp only at h
          rw [ht] at h
          have h := Except.error.inj h
          subst h
          exact .timeArray ht (.inl rfl)
        | none =>
          rw [hc] at h
          have h := Except.error.inj h
          subst h
          exact .timeArray ht (.inr rfl)

/-! ## C104 -/

/-- **C104.**  After any sequence of calls: if `write` raises, there is a fault of the file or
of the states to be written that the exception stands for; all states are still cached and
the records of the file are unchanged.  If the fault is that nothing is stored, that the
quantities differ or that `time` has a fixed length, the file is unchanged; otherwise a
record with a time and without values was added for every time. -/
theorem failed_write_explained (order : SetOrder) (m : NCMon) (hm : NewMonitor m) (ops : List NCOp)
    (hops : ∀ s, .store s ∈ ops → StateOk s) {f f' : NCFile} {M M' : NCMon} {stores : List (Int × State)} {e : Err}
    (hM : ncAfter order m ops = (M, stores)) (hf : f = M.file.getD NCFile.empty)
    (h : ncWrite M = (M', .error e)) (hf' : f' = M'.file.getD NCFile.empty) :
    WriteFault f stores e ∧ M'.cache = M.cache ∧ RecordsKept f f' ∧ (NoticedFirst f stores → f' = f) ∧
    (¬ NoticedFirst f stores → ∃ ts : List Int, ts.Pairwise (· < ·) ∧ (∀ t, t ∈ ts ↔ ∃ p ∈ stores, p.1 = t) ∧
      f'.ntime = f.ntime + ts.length ∧ ∀ j, j < ts.length → (f'.times (f.ntime + j)).isSome) := by
  have hinv := ncAfter_inv (order := order) hm.inv ops hops
  rw [hM] at hinv
  obtain ⟨w1, w2, -, w4, -, -⟩ := ncWrite_eq M
  rw [h] at w1 w2 w4
  dsimp only at w1 w2 w4 hinv
  obtain ⟨a, b, c, d⟩ := writeFile_fails hinv.cache hinv.states (by rw [hinv.us, hinv.deltas]; exact hinv.file) w1.symm
  have e1 : f' = (ncWriteFile M.usPerUnit M.deltas M.cache (M.file.getD NCFile.empty)).1 := by
    rw [hf', w2]
    rfl
  rw [← hf] at a b c d e1
  rw [← e1] at b c d
  exact ⟨a, w4 e rfl, d, b, c⟩

/-- **C104.**  After any sequence of calls, `write` succeeds if there is no fault. -/
theorem faultless_write_succeeds (order : SetOrder) (m : NCMon) (hm : NewMonitor m) (ops : List NCOp)
    (hops : ∀ s, .store s ∈ ops → StateOk s) {M : NCMon} {stores : List (Int × State)}
    (hM : ncAfter order m ops = (M, stores)) (h : ∀ e, ¬ WriteFault (M.file.getD NCFile.empty) stores e) :
    (ncWrite M).2 = .ok () := by
  rcases hw : ncWrite M with ⟨M', r⟩
  cases r with
  | ok u => rfl
  | error e => exact absurd (failed_write_explained order m hm ops hops hM rfl hw rfl).1 (h e)

/-- **C104.**  After any sequence of calls: if `store` raises, there is a fault of the state,
and nothing is changed, or the state was cached and the write that follows raised. -/
theorem failed_store_explained (order : SetOrder) (m : NCMon) (hm : NewMonitor m) (ops : List NCOp)
    (hops : ∀ s, .store s ∈ ops → StateOk s) {M M' : NCMon} {stores : List (Int × State)} {e : Err}
    (hM : ncAfter order m ops = (M, stores)) {s : State} (hs : StateOk s) (h : ncStore order M s = (M', .error e)) :
    (StoreFault M s e ∧ M' = M) ∨
    (M.writeOnStore = true ∧ ∃ p, WriteFault (M.file.getD NCFile.empty) (stores ++ [p]) e ∧
      ncPrepare order M s = .ok p ∧ M'.cache = ncCacheAdd M.cache p.1 p.2 ∧
      RecordsKept (M.file.getD NCFile.empty) (M'.file.getD NCFile.empty)) := by
  have hinv := ncAfter_inv (order := order) hm.inv ops hops
  rw [hM] at hinv
  unfold ncStore at h
  cases hp : ncPrepare order M s with
  | error e' =>
    rw [hp] at h
    injection h with h1 h2
    have h2 := Except.error.inj h2
    subst h1 h2
    exact .inl ⟨prepare_fails hs hp, rfl⟩
  | ok p =>
    obtain ⟨t, cs⟩ := p
    rw [hp] at h
    dsimp only at h
    split at h
    · rename_i hw
      refine .inr ⟨hw, (t, cs), ?_⟩
      have hinv' := add_inv (order := order) hinv hs hp
      obtain ⟨w1, w2, -, w4, -, -⟩ := ncWrite_eq { M with cache := ncCacheAdd M.cache t cs }
      rw [h] at w1 w2 w4
      dsimp only at w1 w2 w4
      obtain ⟨a, -, -, d⟩ := writeFile_fails hinv'.cache hinv'.states
        (by rw [hinv'.us, hinv'.deltas]; exact hinv'.file) w1.symm
      refine ⟨a, rfl, w4 e rfl, ?_⟩
      rw [w2]
      exact d
    · cases h

namespace Demo

/-- A state with a profile of the given length on `x`. -/
def profileState (t : Int) (n : Nat) (units : String) : State :=
  [("T", .da ⟨["x"], ⟨[n], fun _ => 1⟩, [("units", units)]⟩), ("time", .time t)]

theorem profileState_ok (t : Int) (n : Nat) (u : String) : StateOk (profileState t n u) := by
  refine ⟨show ["T", "time"].Nodup by decide, ?_⟩
  intro k a h
  have := Dict.mem_of_get? h
  simp only [profileState, List.mem_cons, Prod.mk.injEq, List.not_mem_nil, or_false] at this
  rcases this with ⟨_, h⟩ | ⟨_, h⟩
  · cases h; rfl
  · cases h

/-- The exception of a write after the calls, and the number of records then. -/
def writeOutcome (ops : List NCOp) : Option Err × Nat :=
  let r := ncWrite (ncAfter order ncMon ops).1
  ((match r.2 with | .ok _ => none | .error e => some e), (r.1.file.getD NCFile.empty).ntime)

-- nothing to write, other units, another length, another set of quantities, an array as time
example : writeOutcome [] = (some .valueError, 0) := by decide +kernel
example : writeOutcome [.store (profileState 0 2 "K"), .write, .store (profileState 1 2 "degC")] =
    (some .invalidState, 2) := by decide +kernel
example : writeOutcome [.store (profileState 0 2 "K"), .write, .store (profileState 1 3 "K")] =
    (some .valueError, 2) := by decide +kernel
example : writeOutcome [.store (profileState 0 2 "K"), .store (profileState 1 3 "K")] =
    (some .valueError, 2) := by decide +kernel
example : writeOutcome [.store (profileState 0 2 "K"), .write, .store [("u", ncT 1 "K"), ("time", .time 1)]] =
    (some .invalidState, 1) := by decide +kernel
example : writeOutcome [.store (profileState 0 2 "K" ++ [("S", .time 3)])] = (some .attributeError, 1) := by
  decide +kernel
example : writeOutcome [.store (profileState 0 2 "K" ++ [("h", .da ⟨["x"], ⟨[3], fun _ => 1⟩, []⟩)])] =
    (some .ioError, 1) := by decide +kernel
-- no fault
example : writeOutcome [.store (profileState 0 2 "K"), .write, .store (profileState 1 2 "K")] = (none, 2) := by
  decide +kernel
example : Exc.failsWith (ncStore order ncMon (profileState 0 2 "K" ++ [("", ncT 1 "K")])).2 .valueError &&
    Exc.failsWith (ncStore order ncMon [("T", ncT 1 "K")]).2 .keyError = true := by decide +kernel

/-- One profile to be written to a new file: no fault. -/
theorem profile_faultless (e : Err) : ¬ WriteFault NCFile.empty [(0, [("T", ncT 1 "K")])] e := by
  have hlast : ∀ {t q v}, lastStored [(0, [("T", ncT 1 "K")])] t q = some v → q = "T" ∧ v = ncT 1 "K" := by
    intro t q v h
    obtain ⟨p, hp, -, hm⟩ := lastStored_mem h
    rw [List.mem_singleton] at hp
    subst hp
    have hm := List.mem_singleton.1 hm
    injection hm with h1 h2
    exact ⟨h1, h2⟩
  have hw : ∀ {t q a}, ToWrite [(0, [("T", ncT 1 "K")])] t q a → a.dims = ["x"] ∧ a.arr.shape = [2] := by
    intro t q a h
    have := (hlast h).2
    unfold ncT at this
    injection this with this
    subst this
    exact ⟨rfl, rfl⟩
  intro h
  cases h with
  | nothing h => cases h
  | quantities h =>
    rcases h with ⟨p, hp, p', hp', q, h1, h2⟩ | ⟨h, -⟩
    · rw [List.mem_singleton] at hp hp'
      subst hp hp'
      exact h2 h1
    · exact h rfl
  | fixedTime h => cases h
  | notArray h _ => cases (hlast h).2
  | scalar h h' => rw [(hw h).2] at h'; cases h'
  | shapes h h' hn =>
    rw [(hw h).2, (hw h').2] at hn
    exact hn (stretches_self _)
  | dims _ h => cases h
  | attrs _ h => cases h
  | fileShape _ h => cases h
  | lengths h _ hd hl hne =>
    rw [(hw h).1, (hw h).2] at hd
    have hd := List.mem_singleton.1 hd
    injection hd with _ hd
    rcases hl with hl | ⟨t, q, b, hb, hl⟩
    · cases hl
    · rw [(hw hb).1, (hw hb).2] at hl
      have hl := List.mem_singleton.1 hl
      injection hl with _ hl
      exact hne (hd.trans hl.symm)
  | timeDim h ht _ =>
    rw [(hw h).1] at ht
    simp at ht

example : (ncWrite (ncAfter order ncMon [.store (ncState 0 1)]).1).2 = .ok () :=
  faultless_write_succeeds order ncMon ncMon_new _ (fun s h => by
    simp only [List.mem_singleton, NCOp.store.injEq] at h
    subst h
    exact ncT_ok) (stores := [(0, [("T", ncT 1 "K")])]) rfl profile_faultless

-- the change of units is a fault
example : ∃ M stores, ncAfter order ncMon [.store (profileState 0 2 "K"), .write, .store (profileState 1 2 "degC")] =
      (M, stores) ∧ WriteFault (M.file.getD NCFile.empty) stores .invalidState ∧
      ¬ NoticedFirst (M.file.getD NCFile.empty) stores := by
  rcases hM : ncAfter order ncMon [.store (profileState 0 2 "K"), .write, .store (profileState 1 2 "degC")] with
    ⟨M, stores⟩
  have h1 : writeOutcome [.store (profileState 0 2 "K"), .write, .store (profileState 1 2 "degC")] =
    (some .invalidState, 2) := by decide +kernel
  have h2 : ((ncAfter order ncMon [.store (profileState 0 2 "K"), .write,
    .store (profileState 1 2 "degC")]).1.file.getD NCFile.empty).ntime = 1 := by decide +kernel
  unfold writeOutcome at h1
  rw [hM] at h1 h2
  dsimp only at h1 h2
  rcases hw : ncWrite M with ⟨M', r⟩
  rw [hw] at h1
  cases r with
  | ok u => cases h1
  | error e =>
    dsimp only at h1
    injection h1 with h1 h3
    injection h1 with h1
    subst h1
    obtain ⟨a, -, -, b, -⟩ := failed_write_explained order ncMon ncMon_new _ (fun s h => by
      simp only [List.mem_cons, NCOp.store.injEq, reduceCtorEq, List.not_mem_nil, or_false, false_or] at h
      rcases h with rfl | rfl <;> exact profileState_ok _ _ _) hM rfl hw rfl
    refine ⟨M, stores, rfl, a, fun hn => ?_⟩
    rw [b hn, h2] at h3
    cases h3

end Demo

end Verif
