import Verif.Props.Util
/-!
# C60: `require_wildcard_matches` of `get_numpy_array`
-/

namespace Verif

/-- The names of a direction after the requirement is taken into account. -/
def requiredNames (req : Dict (List String)) (N : String → List String) (d : String) : List String :=
  match req.get? d with
  | none => N d
  | some r => if sameList (N d) r then r else N d

theorem requireMatches_ok (req : Dict (List String)) (N : String → List String) :
    ∀ (l : List String) (names : Dict (List String)), l.Nodup →
      (∀ d ∈ l, names.get? d = some (N d)) →
      ∃ out, requireMatches req l names = .ok out ∧
        (∀ d ∈ l, out.get? d = some (requiredNames req N d)) ∧
        ∀ d, d ∉ l → out.get? d = names.get? d := by
  intro l
  induction l with
  | nil => intro names _ _; exact ⟨names, rfl, by simp, fun d _ => rfl⟩
  | cons dir rest ih =>
    intro names hn hN
    obtain ⟨hnd, hnr⟩ := List.nodup_cons.1 hn
    unfold requireMatches
    cases hr : req.get? dir with
    | none =>
      dsimp only
      obtain ⟨out, h1, h2, h3⟩ := ih names hnr (fun d hd => hN d (List.mem_cons_of_mem _ hd))
      refine ⟨out, h1, ?_, fun d hd => h3 d (fun h => hd (List.mem_cons_of_mem _ h))⟩
      intro d hd
      rcases List.mem_cons.1 hd with rfl | hd
      · rw [h3 d hnd, hN d (by simp)]
        simp [requiredNames, hr]
      · exact h2 d hd
    | some r =>
      dsimp only
      rw [Dict.get_eq_ok.2 (hN dir (by simp)), Exc.ok_bind]
      obtain ⟨out, h1, h2, h3⟩ := ih (if sameList (N dir) r then names.set dir r else names) hnr (by
        intro d hd
        have hne : dir ≠ d := fun e => hnd (e ▸ hd)
        split
        · rw [Dict.get?_set_ne _ _ hne]; exact hN d (List.mem_cons_of_mem _ hd)
        · exact hN d (List.mem_cons_of_mem _ hd))
      refine ⟨out, h1, ?_, ?_⟩
      · intro d hd
        rcases List.mem_cons.1 hd with rfl | hd
        · rw [h3 d hnd]
          simp only [requiredNames, hr]
          split
          · rw [Dict.get?_set_self]
          · exact hN d (by simp)
        · exact h2 d hd
      · intro d hd
        rw [h3 d (fun h => hd (List.mem_cons_of_mem _ h))]
        have hne : dir ≠ d := fun e => hd (e ▸ List.mem_cons_self)
        split
        · rw [Dict.get?_set_ne _ _ hne]
        · rfl

/-- `same_list` with a list without repeats compares up to order. -/
theorem sameList_iff_perm {l r : List String} (hl : l.Nodup) : sameList l r = true ↔ r.Perm l := by
  unfold sameList
  simp only [Bool.and_eq_true, decide_eq_true_eq, List.all_eq_true, List.contains_eq_mem]
  constructor
  · rintro ⟨⟨h1, h2⟩, h3⟩
    have hsub : l.Subperm r := hl.subperm (fun x hx => h2 x hx)
    exact (hsub.perm_of_length_le (by omega)).symm
  · intro h
    exact ⟨⟨h.length_eq.symm, fun x hx => h.mem_iff.2 hx⟩, fun x hx => h.mem_iff.1 hx⟩

theorem requiredNames_ne {req : Dict (List String)} {dims outDims : List String} (hd : dims.Nodup)
    {d : String} (hne : d ≠ "*") :
    requiredNames req (dirNames dims outDims) d = dirNames dims outDims d := by
  unfold requiredNames
  cases req.get? d with
  | none => rfl
  | some r =>
    dsimp only
    split
    · rename_i h
      rw [sameList_iff_perm (by unfold dirNames; split <;> exact hd.filter _)] at h
      rw [dirNames_single hd hne] at h ⊢
      split at h
      · rename_i hm; rw [if_pos hm]; exact List.perm_singleton.1 h
      · rename_i hm; rw [if_neg hm]; exact List.perm_nil.1 h
    · rfl

/-- The call with requirements, in terms of the list `W` finally used for `*`. -/
theorem get_numpy_array_required (a : DataArray) (hwf : a.WF) (hs : "*" ∉ a.dims)
    (outDims : List String) (hn : outDims.Nodup) (hstar : "*" ∈ outDims)
    (hp : ∀ d ∈ outDims, d ∉ ["x", "y", "z", "*"] → d ∈ a.dims)
    (req : Dict (List String)) (W : List String)
    (hW : W = requiredNames req (dirNames a.dims outDims) "*") (hperm : W.Perm (unlisted a outDims)) :
    ∃ r, utilGetNumpyArray a outDims (some req) = .ok (r, some W) ∧
      r.shape = specShape outDims W (lenOrOne a) ∧
      ∀ ix : String → Nat, a.InBounds ix → (∀ d ∈ outDims, d ∉ a.dims → d ≠ "*" → ix d = 0) →
        r.get (specIndex outDims W (lenOrOne a) ix) = a.at' ix := by
  unfold utilGetNumpyArray
  rw [if_neg (by
    rintro ⟨_, h⟩
    rw [List.length_eq_zero_iff.1 h] at hstar; cases hstar)]
  obtain ⟨names0, hnm⟩ := inputArrayDimNames_isOk hp
  obtain ⟨hN0, _, _⟩ := inputArrayDimNames_ok hs hnm
  rw [hnm, Exc.ok_bind]
  simp only
  obtain ⟨names, hnames, hN, _⟩ := requireMatches_ok req _ outDims names0 hn hN0
  rw [hnames, Exc.ok_bind, mapM_get_ok hN, Exc.ok_bind]
  have hlen : ∀ d ∈ outDims, d ≠ "*" →
      (requiredNames req (dirNames a.dims outDims) d).length ≤ 1 := by
    intro d _ hne
    rw [requiredNames_ne hwf.2 hne]
    exact dirNames_length hwf.2 hne
  have hpm : (outDims.flatMap (requiredNames req (dirNames a.dims outDims))).Perm a.dims := by
    refine List.Perm.trans ?_ (dirNames_perm hn hwf.2 hs (fun d _ => Or.inr hstar))
    apply List.Perm.flatMap_left
    intro d _
    by_cases hd : d = "*"
    · subst hd
      rw [← hW]
      simpa [dirNames, unlisted] using hperm
    · rw [requiredNames_ne hwf.2 hd]
  have hall : (a.dims.all fun d =>
      (outDims.flatMap (requiredNames req (dirNames a.dims outDims))).contains d) = true := by
    rw [List.all_eq_true]
    intro d hd
    simp only [List.contains_eq_mem, decide_eq_true_eq]
    exact hpm.mem_iff.2 hd
  rw [if_pos hall]
  obtain ⟨slices, final, t, v, r, e1, e2, e3, e4, e5⟩ := utilCore_isOk hwf hN hlen hpm
  rw [e1, Exc.ok_bind, e2, Exc.ok_bind, e3, Exc.ok_bind, e4, Exc.ok_bind, e5, Exc.ok_bind,
    hN "*" hstar, ← hW]
  obtain ⟨_, c2, c3⟩ := utilCore_ok hwf hN ⟨slices, final, t, v, e1, e2, e3, e4, e5⟩ hall
  have hin : ∀ x ∈ W, x ∈ a.dims := fun x hx =>
    (List.mem_filter.1 (hperm.mem_iff.1 hx)).1
  refine ⟨r, rfl, ?_, ?_⟩
  · rw [c2]
    unfold specShape
    apply List.map_congr_left
    intro d _
    by_cases hds : d = "*"
    · subst hds
      rw [← hW, if_pos rfl]
      congr 1
      apply List.map_congr_left
      intro x hx
      unfold lenOrOne
      rw [if_pos (hin x hx)]
    · rw [if_neg hds, requiredNames_ne hwf.2 hds, dirNames_single hwf.2 hds]
      unfold lenOrOne
      split <;> simp
  · intro ix hix h0
    rw [← c3 ix hix]
    congr 1
    unfold specIndex
    apply List.map_congr_left
    intro d hd
    by_cases hds : d = "*"
    · subst hds
      rw [← hW, if_pos rfl]
      congr 1
      apply List.map_congr_left
      intro x hx
      unfold lenOrOne
      rw [if_pos (hin x hx)]
    · rw [if_neg hds, requiredNames_ne hwf.2 hds, dirNames_single hwf.2 hds]
      split
      · simp [ravel]
      · rename_i hm
        rw [h0 d hd hm hds]; rfl

/-- **C60, the part that holds.**  When the dims required for `*` are the unlisted
dims of the array in any order, the call succeeds, reports exactly the required
list, and `*` is ravelled in the required order: the value at the row-major
position over the required dims is the one `a` has at those coordinates.

Missing from the full property: a requirement that does not match the array is
not enforced (`require_wildcard_matches_ignored`). -/
theorem require_wildcard_matches_partial (a : DataArray) (hwf : a.WF) (hs : "*" ∉ a.dims)
    (outDims : List String) (hn : outDims.Nodup) (hstar : "*" ∈ outDims)
    (hp : ∀ d ∈ outDims, d ∉ ["x", "y", "z", "*"] → d ∈ a.dims)
    (req : Dict (List String)) (w : List String) (hreq : req.get? "*" = some w)
    (hw : w.Perm (unlisted a outDims)) :
    ∃ r, utilGetNumpyArray a outDims (some req) = .ok (r, some w) ∧
      r.shape = specShape outDims w (lenOrOne a) ∧
      ∀ ix : String → Nat, a.InBounds ix → (∀ d ∈ outDims, d ∉ a.dims → d ≠ "*" → ix d = 0) →
        r.get (specIndex outDims w (lenOrOne a) ix) = a.at' ix := by
  refine get_numpy_array_required a hwf hs outDims hn hstar hp req w ?_ hw
  unfold requiredNames
  rw [hreq]
  dsimp only
  have : sameList (dirNames a.dims outDims "*") w = true := by
    rw [sameList_iff_perm (by unfold dirNames; split <;> exact hwf.2.filter _)]
    simpa [dirNames, unlisted] using hw
  rw [if_pos this]

/-- **C60 fails.**  A requirement for `*` that is not met by the array is silently
ignored: the call succeeds and ravels the unlisted dims in the array's own order,
whatever the requirement says. -/
theorem require_wildcard_matches_ignored (a : DataArray) (hwf : a.WF) (hs : "*" ∉ a.dims)
    (outDims : List String) (hn : outDims.Nodup) (hstar : "*" ∈ outDims)
    (hp : ∀ d ∈ outDims, d ∉ ["x", "y", "z", "*"] → d ∈ a.dims)
    (req : Dict (List String)) (w : List String) (hreq : req.get? "*" = some w)
    (hw : ¬ w.Perm (unlisted a outDims)) :
    ∃ r, utilGetNumpyArray a outDims (some req) = .ok (r, some (unlisted a outDims)) ∧
      r.shape = specShape outDims (unlisted a outDims) (lenOrOne a) ∧
      ∀ ix : String → Nat, a.InBounds ix → (∀ d ∈ outDims, d ∉ a.dims → d ≠ "*" → ix d = 0) →
        r.get (specIndex outDims (unlisted a outDims) (lenOrOne a) ix) = a.at' ix := by
  refine get_numpy_array_required a hwf hs outDims hn hstar hp req _ ?_ (List.Perm.refl _)
  unfold requiredNames
  rw [hreq]
  dsimp only
  have : ¬ sameList (dirNames a.dims outDims "*") w = true := by
    rw [sameList_iff_perm (by unfold dirNames; split <;> exact hwf.2.filter _)]
    simpa [dirNames, unlisted] using hw
  rw [if_neg this]
  simp [dirNames, unlisted]

/-- Non-vacuity: the order of the two horizontal dims can be required, and a
requirement naming another dim is ignored. -/
example : Exc.test (utilGetNumpyArray Demo.temp ["z", "*"] (some [("*", ["y", "x"])]))
    (fun r => decide (r.1.shape = [3, 4] ∧ r.1.get [2, 1] = 120 ∧ r.1.get [2, 2] = 21 ∧
      r.2 = some ["y", "x"])) = true := by decide +kernel
example : Exc.test (utilGetNumpyArray Demo.temp ["z", "*"] (some [("*", ["y", "lon"])]))
    (fun r => decide (r.2 = some ["x", "y"])) = true := by decide +kernel

end Verif
