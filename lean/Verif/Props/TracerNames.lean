import Verif.Props.Tracers
/-!
# C105: what the lists of registered tracers say about tracer arrays
-/

namespace Verif

/-- Names and units are recorded together. -/
def NamesMatch (g : Tracers) : Prop := (Dict.keys g.units).Nodup ∧ ∀ n, n ∈ g.names ↔ n ∈ Dict.keys g.units

theorem namesMatch_run {R : Registry} {g : Tracers} (h : NamesMatch g) (op : TOp) : NamesMatch (op.run R g).1 := by
  cases op with
  | register n u =>
    show NamesMatch (registerTracer R g n u).1
    unfold registerTracer
    dsimp only
    split
    · exact h
    · refine ⟨Dict.nodup_keys_set h.1 _ _, fun k => ?_⟩
      show k ∈ g.names ++ [n] ↔ k ∈ Dict.keys (g.units.set n u)
      rw [List.mem_append, List.mem_singleton, Dict.mem_keys_set, h.2 k, or_comm]
  | create o d p =>
    show NamesMatch (createPacker g o d p).1
    unfold createPacker
    dsimp only
    split
    · exact h
    · exact h
  | resetTracers => exact ⟨List.nodup_nil, fun n => Iff.rfl⟩
  | resetPackers => exact h

theorem namesMatch_history (R : Registry) (ops : List TOp) : ∀ {g : Tracers}, NamesMatch g → NamesMatch (runOps R g ops) := by
  induction ops with
  | nil => exact fun h => h
  | cons op ops ih => exact fun h => ih (namesMatch_run h op)

theorem getTracerUnitDict_get? {g : Tracers} (h : (Dict.keys g.units).Nodup) (n : String) :
    Dict.get? (getTracerUnitDict g) n = g.units.get? n := by
  unfold getTracerUnitDict
  rw [Dict.get?_update _ _ h]
  cases g.units.get? n <;> rfl

/-- **C105.**  After any sequence of calls (with or without exceptions): the tracers along
the tracer axis of a component without prepended tracers are those of `get_tracer_names`
without repetitions, in the order of first occurrence; each name of `get_tracer_names` is a
key of `get_tracer_unit_dict` and conversely, and keys occur once. -/
theorem tracer_names_listed (R : Registry) (ops : List TOp) (p : Packer) (hp : p.prepend = []) :
    tracerNames (runOps R {} ops) p = (getTracerNames (runOps R {} ops)).eraseDups ∧
    (∀ n, n ∈ getTracerNames (runOps R {} ops) ↔ (Dict.get? (getTracerUnitDict (runOps R {} ops)) n).isSome) := by
  have h := namesMatch_history R ops (g := {}) ⟨List.nodup_nil, fun n => Iff.rfl⟩
  refine ⟨?_, fun n => ?_⟩
  · unfold tracerNames getTracerNames
    rw [addNew_spec, hp]
    simp
  · rw [getTracerUnitDict_get? h.1, Dict.get?_isSome_iff]
    exact h.2 n

/-- **C105.**  If no name is registered twice, `get_tracer_names` has the tracers in the order
in which they appear in the tracer arrays of components without prepended tracers.  The
full claim fails otherwise (`registered_twice_listed_twice`). -/
theorem tracer_names_order_partial (R : Registry) (ops : List TOp) (p : Packer) (hok : allOk R {} ops)
    (hp : p.prepend = []) (hreg : ((registrations ops []).map (·.1)).Nodup) :
    tracerNames (runOps R {} ops) p = getTracerNames (runOps R {} ops) ∧
    getTracerNames (runOps R {} ops) = (registrations ops []).map (·.1) ∧
    ∀ n u, (n, u) ∈ registrations ops [] → Dict.get? (getTracerUnitDict (runOps R {} ops)) n = some u := by
  have hn : getTracerNames (runOps R {} ops) = (registrations ops []).map (·.1) :=
    names_eq_registrations R ops {} [] rfl hok
  have h := namesMatch_history R ops (g := {}) ⟨List.nodup_nil, fun n => Iff.rfl⟩
  obtain ⟨hu, -⟩ := globals_of_history R ops {} [] [] hok (fun _ => rfl) rfl
  refine ⟨?_, hn, fun n u hm => ?_⟩
  · rw [(tracer_names_listed R ops p hp).1, hn, eraseDups_of_nodup hreg]
  · rw [getTracerUnitDict_get? h.1, hu]
    generalize registrations ops [] = l at hreg hm
    clear hn hu h hok
    induction l with
    | nil => cases hm
    | cons x l ih =>
      obtain ⟨m, w⟩ := x
      rw [List.map_cons, List.nodup_cons] at hreg
      unfold latestUnits
      rcases List.mem_cons.1 hm with hm | hm
      · injection hm with h1 h2
        subst h1 h2
        have : latestUnits n l = none := by
          have hnot := hreg.1
          clear ih hm hreg
          induction l with
          | nil => rfl
          | cons y l ih =>
            obtain ⟨k, w⟩ := y
            rw [List.map_cons, List.mem_cons, not_or] at hnot
            unfold latestUnits
            rw [ih hnot.2, if_neg (Ne.symm hnot.1)]
            rfl
        rw [this, if_pos rfl]
        rfl
      · rw [ih hreg.2 hm]
        rfl

/-- **C105 fails** for a tracer that is registered again: `get_tracer_names` has it twice, and
more names than the tracer arrays have slices. -/
theorem registered_twice_listed_twice (R : Registry) (ops : List TOp) (p : Packer) (hp : p.prepend = [])
    (n u : String) (hn : n ∈ getTracerNames (runOps R {} ops))
    (hreg : (registerTracer R (runOps R {} ops) n u).2 = .ok ()) :
    ¬ (getTracerNames (registerTracer R (runOps R {} ops) n u).1).Nodup ∧
    (tracerNames (registerTracer R (runOps R {} ops) n u).1 p).length <
      (getTracerNames (registerTracer R (runOps R {} ops) n u).1).length := by
  have he : getTracerNames (registerTracer R (runOps R {} ops) n u).1 = getTracerNames (runOps R {} ops) ++ [n] := by
    unfold registerTracer at hreg ⊢
    dsimp only at hreg ⊢
    split at hreg
    · cases hreg
    · rfl
  have hnd : ¬ (getTracerNames (registerTracer R (runOps R {} ops) n u).1).Nodup := by
    rw [he]
    intro h
    exact (List.nodup_append.1 h).2.2 n hn n (List.mem_singleton.2 rfl) rfl
  refine ⟨hnd, ?_⟩
  have ht : tracerNames (registerTracer R (runOps R {} ops) n u).1 p =
      (getTracerNames (registerTracer R (runOps R {} ops) n u).1).eraseDups := by
    unfold tracerNames getTracerNames
    rw [addNew_spec, hp]
    simp
  rw [ht, he]
  have hsub : ((getTracerNames (runOps R {} ops) ++ [n]).eraseDups).length ≤ (getTracerNames (runOps R {} ops)).length := by
    refine List.Subperm.length_le (List.subperm_of_subset (nodup_eraseDups _) ?_)
    intro k hk
    rw [List.mem_eraseDups, List.mem_append, List.mem_singleton] at hk
    rcases hk with hk | rfl
    · exact hk
    · exact hn
  rw [List.length_append, List.length_singleton]
  omega

namespace Demo

/-- Two tracers. -/
def twoTracers : List TOp := [.register "vapor" "m", .register "dust" "m"]

example : allOk reg {} twoTracers ∧ ((registrations twoTracers []).map (·.1)).Nodup ∧
    getTracerNames (runOps reg {} twoTracers) = ["vapor", "dust"] := by
  refine ⟨⟨rfl, rfl, trivial⟩, by decide, rfl⟩
example : getTracerNames (runOps reg {} (twoTracers ++ [.register "vapor" "m"])) = ["vapor", "dust", "vapor"] ∧
    tracerNames (runOps reg {} (twoTracers ++ [.register "vapor" "m"])) ⟨[], ["tracer", "*"], []⟩ =
      ["vapor", "dust"] := by decide +kernel

end Demo

end Verif
