import Verif.Lemmas.Restore
/-! # Lemmas about `initialize_numpy_arrays_with_properties` -/

namespace Verif

/-- All recorded lengths are those of `L`. -/
def LensOf (L : String → Nat) (lens : Dict Nat) : Prop := ∀ d m, lens.get? d = some m → L d = m

theorem learnRawLens_isOk {L : String → Nat} {dims : List String} {lens : Dict Nat}
    (hL : LensOf L lens) :
    ∃ lens', learnRawLens dims (dims.map L) lens = .ok lens' ∧ LensOf L lens' ∧
      (∀ d ∈ dims, d ∈ lens'.keys) ∧ ∀ d ∈ lens.keys, d ∈ lens'.keys := by
  induction dims generalizing lens with
  | nil => exact ⟨lens, rfl, hL, by simp, fun _ h => h⟩
  | cons d dims ih =>
    simp only [List.map_cons, learnRawLens]
    cases hg : lens.get? d with
    | some m =>
      have := hL d m hg
      simp only [this, ne_eq, not_true_eq_false, if_false]
      obtain ⟨lens', h1, h2, h3, h4⟩ := ih hL
      refine ⟨lens', h1, h2, ?_, h4⟩
      intro x hx
      rcases List.mem_cons.1 hx with rfl | hx
      · exact h4 _ (Dict.mem_keys_of_get? hg)
      · exact h3 x hx
    | none =>
      have hL' : LensOf L (lens.set d (L d)) := by
        intro x m hx
        rw [Dict.get?_set] at hx
        split at hx
        · rename_i e; injection hx with hx; rw [← e, hx]
        · exact hL x m hx
      obtain ⟨lens', h1, h2, h3, h4⟩ := ih hL'
      refine ⟨lens', h1, h2, ?_, fun x hx => h4 x ((Dict.mem_keys_set _ _ _ _).2 (Or.inr hx))⟩
      intro x hx
      rcases List.mem_cons.1 hx with rfl | hx
      · exact h4 _ ((Dict.mem_keys_set _ _ _ _).2 (Or.inl rfl))
      · exact h3 x hx

theorem rawDimLens_isOk {L : String → Nat} {raw : Dict NDArray} {props : PropDict} {lens : Dict Nat}
    (hL : LensOf L lens)
    (h : ∀ kv ∈ props, kv.2.tracer = false → ∃ dims a, kv.2.dims = some dims ∧
      raw.get? (kv.2.aliasName.getD kv.1) = some a ∧ a.shape = dims.map L) :
    ∃ lens', rawDimLens raw props lens = .ok lens' ∧ LensOf L lens' ∧
      (∀ kv ∈ props, kv.2.tracer = false → ∀ dims, kv.2.dims = some dims → ∀ d ∈ dims, d ∈ lens'.keys) ∧
      ∀ d ∈ lens.keys, d ∈ lens'.keys := by
  induction props generalizing lens with
  | nil => exact ⟨lens, rfl, hL, by simp, fun _ h => h⟩
  | cons kv props ih =>
    obtain ⟨name, p⟩ := kv
    simp only [rawDimLens]
    cases ht : p.tracer with
    | true =>
      simp only [if_true]
      obtain ⟨lens', h1, h2, h3, h4⟩ := ih hL (fun kv hkv => h kv (List.mem_cons_of_mem _ hkv))
      refine ⟨lens', h1, h2, ?_, h4⟩
      intro kv hkv htr
      rcases List.mem_cons.1 hkv with rfl | hkv
      · rw [ht] at htr; cases htr
      · exact h3 kv hkv htr
    | false =>
      obtain ⟨dims, a, e1, e2, e3⟩ := h (name, p) List.mem_cons_self ht
      simp only at e1 e2
      simp only [Bool.false_eq_true, if_false, e1]
      rw [Dict.get_eq_ok.2 e2, Exc.ok_bind, e3]
      obtain ⟨lens1, g1, g2, g3, g4⟩ := learnRawLens_isOk (dims := dims) hL
      rw [g1, Exc.ok_bind]
      obtain ⟨lens', h1, h2, h3, h4⟩ := ih g2 (fun kv hkv => h kv (List.mem_cons_of_mem _ hkv))
      refine ⟨lens', h1, h2, ?_, fun d hd => h4 d (g4 d hd)⟩
      intro kv hkv htr dims' hd' d hd
      rcases List.mem_cons.1 hkv with rfl | hkv
      · rw [e1] at hd'; cases hd'
        exact h4 d (g3 d hd)
      · exact h3 kv hkv htr dims' hd' d hd

theorem initLoop_isOk {L : String → Nat} {lens : Dict Nat} {skip : List String}
    {ds : Dict (List String)} {out : Dict NDArray} (hL : LensOf L lens)
    (hn : ds.keys.Nodup)
    (h : ∀ nd ∈ ds, nd.1 ∉ skip → ∀ d ∈ nd.2, d ∈ lens.keys) :
    ∃ out', initLoop lens skip ds out = .ok out' ∧
      (∀ nd ∈ ds, nd.1 ∉ skip → out'.get? nd.1 = some (NDArray.zeros (nd.2.map L))) ∧
      (∀ k, k ∉ ds.keys ∨ k ∈ skip → out'.get? k = out.get? k) := by
  induction ds generalizing out with
  | nil => exact ⟨out, rfl, by simp, fun _ _ => rfl⟩
  | cons nd ds ih =>
    obtain ⟨name, d⟩ := nd
    simp only [Dict.keys_cons, List.nodup_cons] at hn
    simp only [initLoop]
    have h' : ∀ nd ∈ ds, nd.1 ∉ skip → ∀ d ∈ nd.2, d ∈ lens.keys :=
      fun nd hnd => h nd (List.mem_cons_of_mem _ hnd)
    by_cases hs : name ∈ skip
    · simp only [hs, if_true]
      obtain ⟨out', h1, h2, h3⟩ := ih (out := out) hn.2 h'
      refine ⟨out', h1, ?_, ?_⟩
      · intro nd hnd hns
        rcases List.mem_cons.1 hnd with rfl | hnd
        · exact absurd hs hns
        · exact h2 nd hnd hns
      · intro k hk
        apply h3
        rcases hk with hk | hk
        · left; intro hc; apply hk; simp [hc]
        · exact Or.inr hk
    · simp only [hs, if_false]
      rw [mapM_isOk (g := L)]
      · simp only [Exc.ok_bind]
        obtain ⟨out', h1, h2, h3⟩ := ih (out := out.set name (NDArray.zeros (d.map L))) hn.2 h'
        refine ⟨out', h1, ?_, ?_⟩
        · intro nd hnd hns
          rcases List.mem_cons.1 hnd with rfl | hnd
          · rw [h3 _ (Or.inl hn.1), Dict.get?_set_self]
          · exact h2 nd hnd hns
        · intro k hk
          have hne : k ≠ name := by
            rintro rfl
            rcases hk with hk | hk
            · apply hk; simp
            · exact hs hk
          rw [h3 k, Dict.get?_set_ne _ _ (Ne.symm hne)]
          rcases hk with hk | hk
          · left; intro hc; apply hk; simp [hc]
          · exact Or.inr hk
      · intro x hx
        obtain ⟨m, hm⟩ := Dict.get?_of_mem_keys (h (name, d) List.mem_cons_self hs x hx)
        rw [Dict.get_eq_ok, hm, hL x m hm]

end Verif
