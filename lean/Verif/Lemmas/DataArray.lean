import Verif.Lemmas.Backend
import Verif.Spec.Arrays
/-! # Lemmas about DataArray arithmetic -/

namespace Verif

theorem binop_spec (f : Rat → Rat → Rat) (a b : DataArray) (ha : a.WF) (hb : b.WF) :
    (SameLengths a b → ∃ r, DataArray.binop f a b = .ok r ∧ r.WF ∧
      r.dims = a.dims ++ b.dims.filter (fun d => d ∉ a.dims) ∧
      (∀ d ∈ a.dims, r.len d = a.len d) ∧ (∀ d ∈ b.dims, r.len d = b.len d) ∧
      ∀ ix, r.at' ix = f (a.at' ix) (b.at' ix)) ∧
    (¬ SameLengths a b → DataArray.binop f a b = .error .valueError) := by
  constructor
  · intro h
    have hc : ∀ d ∈ b.dims, d ∈ a.dims → b.len d = a.len d := fun d h1 h2 => (h d h2 h1).symm
    unfold DataArray.binop
    simp only
    rw [if_pos hc]
    have hlen : ∀ d ∈ a.dims ++ b.dims.filter (fun d => d ∉ a.dims),
        DataArray.named (a.dims ++ b.dims.filter (fun d => d ∉ a.dims))
          ((a.dims ++ b.dims.filter (fun d => d ∉ a.dims)).map
            (fun d => if d ∈ a.dims then a.len d else b.len d)) d
          = if d ∈ a.dims then a.len d else b.len d :=
      fun d hd => DataArray.named_map (ix := fun d => if d ∈ a.dims then a.len d else b.len d) hd
    refine ⟨_, rfl, ⟨by simp, ?_⟩, rfl, ?_, ?_, ?_⟩
    · rw [List.nodup_append]
      refine ⟨ha.2, hb.2.filter _, ?_⟩
      intro x hx y hy e
      subst e
      simp at hy
      exact hy.2 hx
    · intro d hd
      refine (hlen d (by simp [hd])).trans ?_
      rw [if_pos hd]
    · intro d hd
      by_cases hda : d ∈ a.dims
      · refine (hlen d (by simp [hda])).trans ?_
        rw [if_pos hda]; exact h d hda hd
      · refine (hlen d (by simp [hd, hda])).trans ?_
        rw [if_neg hda]
    · intro ix
      show f (a.at' _) (b.at' _) = _
      unfold DataArray.at'
      congr 2
      · apply List.map_congr_left
        intro d hd
        exact DataArray.named_map (by simp [hd])
      · apply List.map_congr_left
        intro d hd
        apply DataArray.named_map
        by_cases hda : d ∈ a.dims
        · simp [hda]
        · simp [hd, hda]
  · intro h
    unfold DataArray.binop
    simp only
    rw [if_neg]
    intro hc
    exact h (fun d h1 h2 => (hc d h2 h1).symm)

end Verif
