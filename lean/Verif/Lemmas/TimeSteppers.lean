import Verif.Spec.TimeSteppers
import Verif.Lemmas.DataArray
import Mathlib.Tactic.Ring
/-! # Lemmas about time steppers -/

namespace Verif

theorem binop_ok {f : Rat → Rat → Rat} {a b r : DataArray} (h : DataArray.binop f a b = .ok r) :
    r.dims = a.dims ++ b.dims.filter (fun d => d ∉ a.dims) ∧
    ∀ ix, r.at' ix = f (a.at' ix) (b.at' ix) := by
  unfold DataArray.binop at h
  simp only at h
  split at h
  · injection h with h
    subst h
    refine ⟨rfl, ?_⟩
    intro ix
    show f (a.at' _) (b.at' _) = _
    unfold DataArray.at'
    congr 2
    · apply List.map_congr_left
      intro d hd
      exact DataArray.named_map (by simp [hd])
    · apply List.map_congr_left
      intro d hd
      apply DataArray.named_map
      by_cases hda : d ∈ a.dims
      · simp [hda]
      · simp [hd, hda]
  · cases h

theorem add_ok {a b r : DataArray} (h : a.add b = .ok r) :
    r.attrs = a.attrs ∧ r.dims = a.dims ++ b.dims.filter (fun d => d ∉ a.dims) ∧
    ∀ ix, r.at' ix = a.at' ix + b.at' ix := by
  unfold DataArray.add at h
  obtain ⟨q, hq, h⟩ := Exc.bind_ok_iff.1 h
  injection h with h
  subst h
  exact ⟨rfl, (binop_ok hq).1, (binop_ok hq).2⟩

theorem sub_ok {a b r : DataArray} (h : a.sub b = .ok r) :
    r.attrs = a.attrs ∧ r.dims = a.dims ++ b.dims.filter (fun d => d ∉ a.dims) ∧
    ∀ ix, r.at' ix = a.at' ix - b.at' ix := by
  unfold DataArray.sub at h
  obtain ⟨q, hq, h⟩ := Exc.bind_ok_iff.1 h
  injection h with h
  subst h
  exact ⟨rfl, (binop_ok hq).1, (binop_ok hq).2⟩

theorem smul_at (c : Rat) (a : DataArray) (ix : String → Nat) : (a.smul c).at' ix = c * a.at' ix := rfl

theorem State.da_ok {s : State} {q : String} {a : DataArray} :
    State.da s q = .ok a ↔ Dict.get? s q = some (.da a) := by
  unfold State.da
  cases h : Dict.get? s q with
  | none => simp
  | some v => cases v <;> simp

theorem State.val_of_da {s : State} {q : String} {a : DataArray} (h : Dict.get? s q = some (.da a))
    (ix : String → Nat) : State.val s q ix = a.at' ix := by
  unfold State.val; rw [h]

theorem tval_of_get {t : Dict DataArray} {q : String} {a : DataArray} (h : t.get? q = some a)
    (ix : String → Nat) : tval t q ix = a.at' ix := by
  unfold tval; rw [h]

theorem stepKeys_ok {f : String → Except Err DataArray} {ks : List String} {new : State}
    (h : stepKeys f ks = .ok new) :
    Dict.keys new = ks ∧ ∀ q ∈ ks, ∃ v, f q = .ok v ∧ Dict.get? new q = some (.da v) := by
  induction ks generalizing new with
  | nil =>
    unfold stepKeys at h; cases h
    exact ⟨rfl, by simp⟩
  | cons k ks ih =>
    unfold stepKeys at h
    obtain ⟨v, hv, h⟩ := Exc.bind_ok_iff.1 h
    obtain ⟨rest, hr, h⟩ := Exc.bind_ok_iff.1 h
    injection h with h
    subst h
    obtain ⟨i1, i2⟩ := ih hr
    refine ⟨?_, ?_⟩
    · show k :: Dict.keys rest = _
      rw [i1]
    · intro q hq
      by_cases hkq : k = q
      · subst hkq
        exact ⟨v, hv, by rw [Dict.get?_cons, if_pos rfl]⟩
      · rcases List.mem_cons.1 hq with rfl | hq
        · exact absurd rfl hkq
        · obtain ⟨w, hw, hg⟩ := i2 q hq
          exact ⟨w, hw, by rw [Dict.get?_cons, if_neg hkq]; exact hg⟩

theorem copyUntouched_spec (old new : State) :
    (∀ k, k ∈ Dict.keys (copyUntouched old new) ↔ k ∈ Dict.keys old ∨ k ∈ Dict.keys new) ∧
    (∀ k ∈ Dict.keys new, Dict.get? (copyUntouched old new) k = Dict.get? new k) ∧
    (∀ k, k ∉ Dict.keys new → Dict.get? (copyUntouched old new) k = Dict.get? old k) := by
  induction old generalizing new with
  | nil =>
    refine ⟨fun k => by simp [copyUntouched], fun k _ => rfl, fun k h => ?_⟩
    exact (Dict.get?_eq_none_iff _ _).2 h
  | cons kv old ih =>
    obtain ⟨k0, v0⟩ := kv
    unfold copyUntouched
    have hk : Dict.keys ((k0, v0) :: old) = k0 :: Dict.keys old := rfl
    by_cases h0 : k0 ∈ Dict.keys new
    · rw [if_pos h0]
      obtain ⟨i1, i2, i3⟩ := ih new
      refine ⟨?_, i2, ?_⟩
      · intro k
        rw [i1, hk, List.mem_cons]
        constructor
        · rintro (h | h)
          · exact Or.inl (Or.inr h)
          · exact Or.inr h
        · rintro ((rfl | h) | h)
          · exact Or.inr h0
          · exact Or.inl h
          · exact Or.inr h
      · intro k hkn
        rw [i3 k hkn, Dict.get?_cons, if_neg]
        rintro rfl; exact hkn h0
    · rw [if_neg h0]
      obtain ⟨i1, i2, i3⟩ := ih (Dict.set new k0 v0)
      refine ⟨?_, ?_, ?_⟩
      · intro k
        rw [i1, hk, List.mem_cons, Dict.mem_keys_set]
        constructor
        · rintro (h | rfl | h)
          · exact Or.inl (Or.inr h)
          · exact Or.inl (Or.inl rfl)
          · exact Or.inr h
        · rintro ((rfl | h) | h)
          · exact Or.inr (Or.inl rfl)
          · exact Or.inl h
          · exact Or.inr (Or.inr h)
      · intro k hkn
        rw [i2 k ((Dict.mem_keys_set _ _ _ _).2 (Or.inr hkn)), Dict.get?_set_ne]
        rintro rfl; exact h0 hkn
      · intro k hkn
        rw [Dict.get?_cons]
        by_cases hkk : k0 = k
        · subst hkk
          rw [if_pos rfl, i2 k0 ((Dict.mem_keys_set _ _ _ _).2 (Or.inl rfl)), Dict.get?_set_self]
        · rw [if_neg hkk]
          apply i3
          intro hc
          rcases (Dict.mem_keys_set _ _ _ _).1 hc with rfl | hc
          · exact hkk rfl
          · exact hkn hc

theorem convertTendencies_ok {R : Registry} {state : State} {t t' : Dict DataArray}
    (h : convertTendencies R state t = .ok t') :
    Dict.keys t' = Dict.keys t ∧
    ∀ q v, t.get? q = some v → ∃ v', t'.get? q = some v' ∧ convertTendency R state q v = .ok v' := by
  induction t generalizing t' with
  | nil =>
    unfold convertTendencies at h; cases h
    exact ⟨rfl, fun q v hq => (by cases hq)⟩
  | cons kv t ih =>
    obtain ⟨k, v0⟩ := kv
    unfold convertTendencies at h
    obtain ⟨v', hv, h⟩ := Exc.bind_ok_iff.1 h
    obtain ⟨rest, hr, h⟩ := Exc.bind_ok_iff.1 h
    injection h with h
    subst h
    obtain ⟨i1, i2⟩ := ih hr
    refine ⟨?_, ?_⟩
    · show k :: Dict.keys rest = k :: Dict.keys t
      rw [i1]
    · intro q v hq
      rw [Dict.get?_cons] at hq
      by_cases hk : k = q
      · subst hk
        rw [if_pos rfl] at hq
        cases hq
        exact ⟨v', by rw [Dict.get?_cons, if_pos rfl], hv⟩
      · rw [if_neg hk] at hq
        obtain ⟨w, hw, hc⟩ := i2 q v hq
        exact ⟨w, by rw [Dict.get?_cons, if_neg hk]; exact hw, hc⟩

/-- What one step of the schemes does: the keys it steps and the formula. -/
theorem performStep_spec {order : Nat} {hist : List (Dict DataArray)} {state new : State} {dt : Int}
    (h : performStep order hist state dt = .ok new) :
    ∃ m, m = min order hist.length ∧ 1 ≤ m ∧ m ≤ 4 ∧
      Dict.keys new = Dict.keys ((if m = 1 then hist.getLast? else hist.head?).getD []) ∧
      ∀ q ∈ Dict.keys new, ∃ x r, Dict.get? state q = some (.da x) ∧ Dict.get? new q = some (.da r) ∧
        r.attrs = x.attrs ∧ (∀ d ∈ x.dims, d ∈ r.dims) ∧
        (∀ j < m, q ∈ Dict.keys (hist.reverse.getD j [])) ∧
        ∀ ix, r.at' ix = abFormula m (x.at' ix) (seconds dt) (fun j => tval (hist.reverse.getD j []) q ix) := by
  unfold performStep at h
  cases hh : hist with
  | nil => rw [hh] at h; cases h
  | cons t0 l =>
    cases hr : hist.reverse with
    | nil => rw [List.reverse_eq_nil_iff] at hr; rw [hr] at hh; cases hh
    | cons t1 prev =>
      have hlast : hist.getLast? = some t1 := by rw [← List.head?_reverse, hr]; rfl
      have hhead : hist.head? = some t0 := by rw [hh]; rfl
      rw [← hh, hr]
      rw [hr] at h
      rw [hh] at h
      simp only at h
      rw [← hh] at h
      have hmem : ∀ {t : Dict DataArray} {q : String} {v : DataArray}, t.get q = .ok v → q ∈ Dict.keys t :=
        fun hv => Dict.mem_keys_of_get? (Dict.get_eq_ok.1 hv)
      split at h
      · rename_i hm
        refine ⟨1, hm.symm, by omega, by omega, ?_⟩
        unfold stepEuler at h
        obtain ⟨k1, k2⟩ := stepKeys_ok h
        refine ⟨?_, ?_⟩
        · rw [k1, hlast]; rfl
        · intro q hq
          rw [k1] at hq
          obtain ⟨r, hf, hg⟩ := k2 q hq
          obtain ⟨x, hx, hf⟩ := Exc.bind_ok_iff.1 hf
          obtain ⟨v, hv, hf⟩ := Exc.bind_ok_iff.1 hf
          obtain ⟨a1, a2, a3⟩ := add_ok hf
          refine ⟨x, r, State.da_ok.1 hx, hg, a1, fun d hd => by rw [a2]; simp [hd], ?_, ?_⟩
          · intro j hj
            have : j = 0 := by omega
            subst this
            exact hmem hv
          · intro ix
            rw [a3, smul_at]
            simp only [abFormula, List.range_succ, List.range_zero, List.nil_append, List.map_cons,
              List.map_nil, List.sum_cons, List.sum_nil, abCoef, List.getD_cons_zero,
              tval_of_get (Dict.get_eq_ok.1 hv)]
            ring
      · rename_i t2 prev' hm
        refine ⟨2, hm.symm, by omega, by omega, ?_⟩
        unfold secondBashforth at h
        obtain ⟨k1, k2⟩ := stepKeys_ok h
        refine ⟨?_, ?_⟩
        · rw [k1, hhead]; rfl
        · intro q hq
          rw [k1] at hq
          obtain ⟨r, hf, hg⟩ := k2 q hq
          obtain ⟨x, hx, hf⟩ := Exc.bind_ok_iff.1 hf
          obtain ⟨v1, hv1, hf⟩ := Exc.bind_ok_iff.1 hf
          obtain ⟨v2, hv2, hf⟩ := Exc.bind_ok_iff.1 hf
          obtain ⟨d, hd, hf⟩ := Exc.bind_ok_iff.1 hf
          obtain ⟨_, _, s3⟩ := sub_ok hd
          obtain ⟨a1, a2, a3⟩ := add_ok hf
          refine ⟨x, r, State.da_ok.1 hx, hg, a1, fun d hd => by rw [a2]; simp [hd], ?_, ?_⟩
          · intro j hj
            rcases (by omega : j = 0 ∨ j = 1) with rfl | rfl
            · exact hmem hv1
            · exact hmem hv2
          · intro ix
            rw [a3, smul_at, s3, smul_at, smul_at]
            simp only [abFormula, List.range_succ, List.range_zero, List.nil_append, List.map_cons,
              List.map_nil, List.sum_cons, List.sum_nil, abCoef, List.getD_cons_zero, List.cons_append,
              List.getD_cons_succ,
              tval_of_get (Dict.get_eq_ok.1 hv1), tval_of_get (Dict.get_eq_ok.1 hv2)]
            ring
      · rename_i t2 t3 prev' hm
        refine ⟨3, hm.symm, by omega, by omega, ?_⟩
        unfold thirdBashforth at h
        obtain ⟨k1, k2⟩ := stepKeys_ok h
        refine ⟨?_, ?_⟩
        · rw [k1, hhead]; rfl
        · intro q hq
          rw [k1] at hq
          obtain ⟨r, hf, hg⟩ := k2 q hq
          obtain ⟨x, hx, hf⟩ := Exc.bind_ok_iff.1 hf
          obtain ⟨v1, hv1, hf⟩ := Exc.bind_ok_iff.1 hf
          obtain ⟨v2, hv2, hf⟩ := Exc.bind_ok_iff.1 hf
          obtain ⟨d, hd, hf⟩ := Exc.bind_ok_iff.1 hf
          obtain ⟨v3, hv3, hf⟩ := Exc.bind_ok_iff.1 hf
          obtain ⟨d', hd', hf⟩ := Exc.bind_ok_iff.1 hf
          obtain ⟨_, _, s3⟩ := sub_ok hd
          obtain ⟨_, _, s4⟩ := add_ok hd'
          obtain ⟨a1, a2, a3⟩ := add_ok hf
          refine ⟨x, r, State.da_ok.1 hx, hg, a1, fun d hd => by rw [a2]; simp [hd], ?_, ?_⟩
          · intro j hj
            rcases (by omega : j = 0 ∨ j = 1 ∨ j = 2) with rfl | rfl | rfl
            · exact hmem hv1
            · exact hmem hv2
            · exact hmem hv3
          · intro ix
            rw [a3, smul_at, s4, s3, smul_at, smul_at, smul_at]
            simp only [abFormula, List.range_succ, List.range_zero, List.nil_append, List.map_cons,
              List.map_nil, List.sum_cons, List.sum_nil, abCoef, List.getD_cons_zero, List.cons_append,
              List.getD_cons_succ,
              tval_of_get (Dict.get_eq_ok.1 hv1), tval_of_get (Dict.get_eq_ok.1 hv2),
              tval_of_get (Dict.get_eq_ok.1 hv3)]
            ring
      · rename_i t2 t3 t4 prev' hm
        refine ⟨4, hm.symm, by omega, by omega, ?_⟩
        unfold fourthBashforth at h
        obtain ⟨k1, k2⟩ := stepKeys_ok h
        refine ⟨?_, ?_⟩
        · rw [k1, hhead]; rfl
        · intro q hq
          rw [k1] at hq
          obtain ⟨r, hf, hg⟩ := k2 q hq
          obtain ⟨x, hx, hf⟩ := Exc.bind_ok_iff.1 hf
          obtain ⟨v1, hv1, hf⟩ := Exc.bind_ok_iff.1 hf
          obtain ⟨v2, hv2, hf⟩ := Exc.bind_ok_iff.1 hf
          obtain ⟨d, hd, hf⟩ := Exc.bind_ok_iff.1 hf
          obtain ⟨v3, hv3, hf⟩ := Exc.bind_ok_iff.1 hf
          obtain ⟨d', hd', hf⟩ := Exc.bind_ok_iff.1 hf
          obtain ⟨v4, hv4, hf⟩ := Exc.bind_ok_iff.1 hf
          obtain ⟨d'', hd'', hf⟩ := Exc.bind_ok_iff.1 hf
          obtain ⟨_, _, s3⟩ := sub_ok hd
          obtain ⟨_, _, s4⟩ := add_ok hd'
          obtain ⟨_, _, s5⟩ := sub_ok hd''
          obtain ⟨a1, a2, a3⟩ := add_ok hf
          refine ⟨x, r, State.da_ok.1 hx, hg, a1, fun d hd => by rw [a2]; simp [hd], ?_, ?_⟩
          · intro j hj
            rcases (by omega : j = 0 ∨ j = 1 ∨ j = 2 ∨ j = 3) with rfl | rfl | rfl | rfl
            · exact hmem hv1
            · exact hmem hv2
            · exact hmem hv3
            · exact hmem hv4
          · intro ix
            rw [a3, smul_at, s5, s4, s3, smul_at, smul_at, smul_at, smul_at]
            simp only [abFormula, List.range_succ, List.range_zero, List.nil_append, List.map_cons,
              List.map_nil, List.sum_cons, List.sum_nil, abCoef, List.getD_cons_zero, List.cons_append,
              List.getD_cons_succ,
              tval_of_get (Dict.get_eq_ok.1 hv1), tval_of_get (Dict.get_eq_ok.1 hv2),
              tval_of_get (Dict.get_eq_ok.1 hv3), tval_of_get (Dict.get_eq_ok.1 hv4)]
            ring
      · cases h

end Verif
