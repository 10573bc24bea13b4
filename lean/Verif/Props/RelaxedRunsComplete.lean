import Verif.Props.RunsComplete
import Verif.Props.RelaxationRuns
/-!
# C99: runs with a relaxation complete
-/

namespace Verif

variable {σ : Type} {R : Registry} {L : String → Nat} {quotient : String → String} {q units : String}

/-- A state from which a RelaxationTendencyComponent can be stepped: its inputs are there in
units that convert, the equilibrium and the timescale have no dimensions that the quantity
does not have, and the units of the tendency convert to those of the quantity per second. -/
structure Relaxable (R : Registry) (quotient : String → String) (q units : String) (state0 : State) : Prop where
  inputs : ValidInputs R state0 (relaxInputs q units)
  time : "time" ∈ Dict.keys state0
  noStar : ∀ k b, Dict.get? state0 k = some (.da b) → "*" ∉ b.dims
  dims : ∀ b e, Dict.get? state0 q = some (.da b) →
    Dict.get? state0 ("equilibrium_" ++ q) = some (.da e) ∨ Dict.get? state0 (q ++ "_relaxation_timescale") = some (.da e) →
    ∀ d ∈ e.dims, d ∈ b.dims
  rate : ∃ u pa pb, HasUnits state0 q u ∧ R.parse (quotient units) = some pa ∧ R.parse (u ++ " s^-1") = some pb ∧
    pa.dim = pb.dim
  names : q ≠ "time" ∧ "equilibrium_" ++ q ≠ "time" ∧ q ++ "_relaxation_timescale" ≠ "time"

theorem Ready.onGrid {Q : List String} {state0 state : State} (hS : Startable L Q state0)
    (hstar : ∀ k b, Dict.get? state0 k = some (.da b) → "*" ∉ b.dims) (h : Ready L Q 1 state0 state) :
    ∀ k a, (k, Val.da a) ∈ state → OnGrid L a := by
  intro k a hm
  by_cases hk : k = "time"
  · subst hk
    have := Dict.get?_of_mem h.keys hm
    rw [h.time] at this
    exact absurd this (hS.time a)
  · obtain ⟨b, a', hb, ha, hl⟩ := h.entry hS hk hm
    cases ha
    exact ⟨hl.sized, fun hd => hstar k b hb (hl.dims ▸ hd)⟩

theorem Relaxable.valid {Q : List String} {state0 state : State} (hS : Startable L Q state0)
    (hx : Relaxable R quotient q units state0) (h : Ready L Q 1 state0 state) :
    ValidInputs R state (relaxInputs q units) := by
  have hg := h.onGrid hS hx.noStar
  have hkey : ∀ kv ∈ relaxInputs q units, kv.1 ≠ "time" ∧ kv.2.dims = some ["*"] := by
    intro kv hkv
    simp only [relaxInputs, List.mem_cons, List.not_mem_nil, or_false] at hkv
    rcases hkv with rfl | rfl | rfl
    · exact ⟨hx.names.1, rfl⟩
    · exact ⟨hx.names.2.1, rfl⟩
    · exact ⟨hx.names.2.2, rfl⟩
  have hreq : ∀ p ∈ requested state (relaxInputs q units), OnGrid L p.1 ∧ p.2 = ["*"] := by
    intro p hp
    unfold requested at hp
    obtain ⟨kv, hkv, hp⟩ := List.mem_filterMap.1 hp
    rw [(hkey kv hkv).2] at hp
    cases hv : Dict.get? state kv.1 with
    | none => rw [hv] at hp; cases hp
    | some v =>
      rw [hv] at hp
      cases v with
      | time t => cases hp
      | da a => cases hp; exact ⟨hg _ _ (Dict.mem_of_get? hv), rfl⟩
  refine ⟨fun kv hkv => ?_, fun p hp p' hp' d hd hd' => ?_, fun p hp hns => ?_⟩
  · obtain ⟨dims, us, b, own, ua, ub, h1, h2, h3, h4, h5, h6, h7⟩ := hx.inputs.entry kv hkv
    obtain ⟨a, ha, hl, -⟩ := h.present kv.1 b (hkey kv hkv).1 h3
    exact ⟨dims, us, a, own, ua, ub, h1, h2, ha, by rw [hl.attrs]; exact h4, h5, h6, h7⟩
  · rw [len_of_sized (hreq p hp).1.1 hd, len_of_sized (hreq p' hp').1.1 hd']
  · rw [(hreq p hp).2] at hns
    exact absurd (List.mem_singleton.2 rfl) hns

/-- **C99.**  A RelaxationTendencyComponent gives a tendency that fits to every state like
the first one. -/
theorem relaxation_gives (hR : R.Faithful) (hq : QuotientOk R quotient units) {m : Comp σ}
    (hm : IsRelaxation R quotient q units m) {Q : List String} {state0 : State} (hS : Startable L Q state0)
    (hx : Relaxable R quotient q units state0) (dt : Int) :
    GivesRates R L Q [q] [] state0 dt fun s state dt => implicitCall m state dt s := by
  intro s state h
  have hg := h.onGrid hS hx.noStar
  obtain ⟨hwf, hsf⟩ := onGrid_wf hg
  obtain ⟨⟨ho1, ho2⟩, g0, g1, g, c, i, tid, name, hc, hmade, hcall⟩ := id hm
  obtain ⟨time, ht⟩ := Dict.get?_of_mem_keys ((h.mem hS "time").2 hx.time)
  obtain ⟨tend, diag, da, v, e, tau, k1, k2, k3, k4, k5, k6, k7, k8, -⟩ :=
    relaxation_tendency R hR quotient g0 g1 g q units name tid c i hq hc hmade state hwf hsf time ht (hx.valid hS h) s
  have hcl : (implicitCall m state dt s).2 = .ok (tend, diag) := by
    unfold implicitCall
    rw [ho1, ho2]
    simp only [Bool.false_eq_true, if_false, if_true]
    rw [hcall, k1]
  obtain ⟨hnd, hkeys, da', v', e', tau', j1, j2, j3, -⟩ := relaxation_call hR hq hm hg hcl
  rw [k3] at j1; cases j1
  refine ⟨(tend, diag), hcl, hnd, fun k => by rw [hkeys, List.mem_singleton], fun k w hw => ?_, fun n hn => by cases hn⟩
  have hkq : k = q := (hkeys k).1 (Dict.mem_keys_of_get? hw)
  subst hkq
  rw [k3] at hw; cases hw
  obtain ⟨u, pa, pb, ⟨b, hb, hbu⟩, hpa, hpb, hdim⟩ := hx.rate
  have like : ∀ n x, n ≠ "time" → Dict.get? state n = some (.da x) → ∃ y, Dict.get? state0 n = some (.da y) ∧ Likewise L y x := by
    intro n x hn hx
    obtain ⟨y, x', hy, he, hl⟩ := h.entry hS hn (Dict.mem_of_get? hx)
    cases he
    exact ⟨y, hy, hl⟩
  refine ⟨⟨b, hb, j2.1, fun d hd => ?_, .inr ⟨quotient units, u, pa, pb, by rw [k4]; rfl, hbu, hpa, hpb, hdim⟩⟩,
    by rw [k4]; exact Option.some_ne_none _⟩
  rcases (k8 d).1 hd with hd | hd | hd
  · obtain ⟨y, hy, hl⟩ := like _ _ hx.names.1 k5
    rw [hb] at hy; cases hy
    exact hl.dims ▸ hd
  · obtain ⟨y, hy, hl⟩ := like _ _ hx.names.2.1 k6
    exact hx.dims b y hb (.inl hy) d (hl.dims ▸ hd)
  · obtain ⟨y, hy, hl⟩ := like _ _ hx.names.2.2 k7
    exact hx.dims b y hb (.inr hy) d (hl.dims ▸ hd)

namespace Demo

theorem relaxRun_startable : Startable relaxL ["h", "T"] relaxRunState where
  keys := by decide
  arrays := by
    intro k v hk hv
    cases v with
    | time t =>
      have hm := Dict.mem_of_get? hv
      simp only [relaxRunState, relaxState, List.mem_cons, Prod.mk.injEq, List.not_mem_nil, or_false] at hm
      rcases hm with ⟨-, h⟩ | ⟨-, h⟩ | ⟨-, h⟩ | ⟨-, h⟩ | ⟨h, -⟩ <;> first | cases h; done | exact absurd h hk
    | da a => exact ⟨a, rfl, (relaxRunState_grid k a (Dict.mem_of_get? hv)).1⟩
  stepped := by decide +kernel
  time := by
    intro a h
    have : Dict.get? relaxRunState "time" = some (.time 0) := rfl
    rw [this] at h
    cases h

theorem relaxRun_relaxable : Relaxable reg (· ++ " s^-1") "T" "K" relaxRunState where
  inputs := by
    obtain ⟨h1, h2, h3⟩ := relaxState_valid
    have hreq : requested relaxRunState (relaxInputs "T" "K") = requested relaxState (relaxInputs "T" "K") := rfl
    refine ⟨fun kv hkv => ?_, hreq ▸ h2, hreq ▸ h3⟩
    unfold relaxInputs at hkv
    simp only [List.mem_cons, List.not_mem_nil, or_false] at hkv
    rcases hkv with rfl | rfl | rfl
    · exact ⟨_, _, temp, "K", _, _, rfl, rfl, rfl, rfl, rfl, rfl, rfl⟩
    · exact ⟨_, _, _, "degC", _, _, rfl, rfl, rfl, rfl, rfl, rfl, rfl⟩
    · exact ⟨_, _, _, "s", _, _, rfl, rfl, rfl, rfl, rfl, rfl, rfl⟩
  time := by decide
  noStar := fun k b h => (relaxRunState_grid k b (Dict.mem_of_get? h)).2
  dims := by
    intro b e hb he
    have hT : Dict.get? relaxRunState "T" = some (.da temp) := rfl
    have hE : Dict.get? relaxRunState ("equilibrium_" ++ "T") =
      some (.da ⟨["z"], ⟨[3], fun i => (i.getD 0 0 : Nat)⟩, [("units", "degC")]⟩) := rfl
    have hS : Dict.get? relaxRunState ("T" ++ "_relaxation_timescale") =
      some (.da ⟨["x"], ⟨[2], fun i => (i.getD 0 0 : Nat) * 10 + 10⟩, [("units", "s")]⟩) := rfl
    rw [hT] at hb
    rw [hE, hS] at he
    cases hb
    rcases he with he | he <;> cases he <;> decide
  rate := ⟨"K", _, _, ⟨temp, rfl, rfl⟩, rfl, rfl, rfl⟩
  names := by decide

theorem hMember_gives (Q N : List String) (dt : Int) :
    GivesRates reg relaxL Q ["h"] N relaxRunState dt fun s state dt => implicitCall hMember state dt s := by
  intro s state _
  refine ⟨([("h", ⟨["z"], ⟨[3], fun _ => 5⟩, [("units", "m s^-1")]⟩)], []), rfl, by decide, fun k => Iff.rfl,
    fun k v hv => ?_, fun n _ hm => by cases hm⟩
  have hm := Dict.mem_of_get? hv
  rw [List.mem_singleton] at hm
  cases hm
  exact ⟨⟨prof, rfl, ⟨by decide, by decide⟩, by decide, .inr ⟨"m s^-1", "km", _, _, rfl, rfl, rfl, rfl, rfl⟩⟩, by decide⟩

/-- The quantities of each component. -/
def memberQ (c : Comp Unit) : List String := Dict.keys c.cls.outProps

theorem relaxProg_supplies (dt : Int) : Supplies reg relaxL ["h", "T"] [] relaxRunState dt relaxProg := by
  refine composite_supplies memberQ (fun k => ?_) fun c hc => ?_
  · have h1 : memberQ hMember = ["h"] := rfl
    have h2 : memberQ relaxMember = ["T"] := rfl
    simp only [List.cons_append, List.nil_append, List.mem_cons, List.not_mem_nil, or_false, or_and_right, exists_or,
      exists_eq_left, h1, h2]
  · rcases List.mem_cons.1 hc with rfl | hc
    · exact hMember_gives _ _ dt
    · rcases List.mem_cons.1 hc with rfl | hc
      · exact relaxation_gives reg_faithful quotient_K relaxMember_is relaxRun_startable relaxRun_relaxable dt
      · cases hc

/-- All steps of the second-order Adams-Bashforth scheme with a timestep of one second succeed,
and the temperature approaches 275.15 K, from 120 K. -/
example : ∃ run : Nat → AB × Unit × State,
    (∀ n, runSteps (tsCall reg [] [] "AB" false (abCall reg relaxProg)) 1000000 n { order := 2 } () relaxRunState = some (run n)) ∧
    Vanishes (fun n => State.val (run n).2.2 "T" relaxIx - 27515 / 100) := by
  have h := fun n => ab_completes (inProps := []) (outProps := []) (inst := "AB") (tid := false) relaxRun_startable
    (relaxProg_supplies 1000000) (by simp) 2 { order := 2 } rfl n ()
  choose run hrun _ using h
  exact ⟨run, hrun, ab_reaches_equilibrium reg_faithful quotient_K relaxMember_is (by simpa using hMember_elsewhere)
    (by simp) relaxIx_lt relaxRunState_grid relaxing_here [] [] "AB" false 1000000 (by decide +kernel) 2 { order := 2 } rfl
    (by show seconds 1000000 < 1 * 20; decide +kernel) () run hrun⟩

/-- So it does with three stages of SSPRungeKutta and timesteps of 40 seconds. -/
example : ∃ run : Nat → AB × Unit × State,
    (∀ n, runSteps (tsCall reg [] [] "SSP" false (sspCall reg relaxProg true)) 40000000 n { order := 1 } () relaxRunState =
      some (run n)) ∧
    Vanishes (fun n => State.val (run n).2.2 "T" relaxIx - 27515 / 100) := by
  have h := fun n => ssprk_completes (inProps := []) (outProps := []) (inst := "SSP") (tid := false) relaxRun_startable
    (relaxProg_supplies 40000000) (by simp) true n ()
  choose run hrun _ using h
  exact ⟨run, hrun, ssprk_reaches_equilibrium reg_faithful quotient_K relaxMember_is (by simpa using hMember_elsewhere)
    (by simp) relaxIx_lt relaxRunState_grid relaxing_here [] [] "SSP" false 40000000 (by decide +kernel) true
    (by show seconds 40000000 < 5 / 2 * 20; decide +kernel) (by decide) relaxRun_startable.time () run hrun⟩

/-- With Leapfrog, its default filter and a timescale of 20 s, timesteps of half a second are
short enough, timesteps of 2 seconds are too long: the distance grows beyond every bound. -/
example : (∃ run : Nat → LF × Unit × State,
    (∀ n, runSteps (tsCall reg [] [] "LF" false (LF.call reg relaxProg)) 500000 n {} () relaxRunState = some (run n)) ∧
    Vanishes (fun n => State.val (run n).2.2 "T" relaxIx - 27515 / 100)) ∧
    ∃ run : Nat → LF × Unit × State,
    (∀ n, runSteps (tsCall reg [] [] "LF" false (LF.call reg relaxProg)) 2000000 n {} () relaxRunState = some (run n)) ∧
    Unbounded (fun n => State.val (run n).2.2 "T" relaxIx - 27515 / 100) := by
  have e : State.val relaxRunState "T" relaxIx = 120 := by decide +kernel
  constructor
  · have h := fun n => lf_completes (inProps := []) (outProps := []) (inst := "LF") (tid := false) relaxRun_startable
      (relaxProg_supplies 500000) (by simp) (1 / 20) (1 / 2) n ()
    choose run hrun _ using h
    exact ⟨run, hrun, (lf_reaches_equilibrium reg_faithful quotient_K relaxMember_is (by simpa using hMember_elsewhere)
      (by simp) relaxIx_lt relaxRunState_grid relaxing_here [] [] "LF" false 500000 (by decide +kernel) (1 / 20) (1 / 2)
      (by norm_num) (by norm_num) (by norm_num) (by norm_num) () run hrun).1.2 (.inl (by decide +kernel))⟩
  · have h := fun n => lf_completes (inProps := []) (outProps := []) (inst := "LF") (tid := false) relaxRun_startable
      (relaxProg_supplies 2000000) (by simp) (1 / 20) (1 / 2) n ()
    choose run hrun _ using h
    exact ⟨run, hrun, (lf_reaches_equilibrium reg_faithful quotient_K relaxMember_is (by simpa using hMember_elsewhere)
      (by simp) relaxIx_lt relaxRunState_grid relaxing_here [] [] "LF" false 2000000 (by decide +kernel) (1 / 20) (1 / 2)
      (by norm_num) (by norm_num) (by norm_num) (by norm_num) () run hrun).2 (by decide +kernel) (by rw [e]; norm_num)⟩

/-- With tendencies in diagnostics, for a composite of one component. -/
example (n : Nat) : ∃ r, runSteps (tsCall reg [("h", { dims := some ["z"], units := some "m" })]
    [("h", { dims := some ["z"], units := some "m" })] "AB" true (abCall reg (fun s state dt =>
      callImplicitComposite reg [hMember] s state dt))) 1000000 n { order := 3 } () relaxRunState = some r ∧
    Ready relaxL ["h"] 1 relaxRunState r.2.2 := by
  refine ab_completes (N := ["h_tendency_from_AB"]) ⟨relaxRun_startable.keys, relaxRun_startable.arrays, by decide +kernel,
    relaxRun_startable.time⟩ (composite_supplies memberQ (fun k => ?_) fun c hc => ?_) (fun _ => ⟨⟨by decide, ?_⟩, ?_⟩) 3
    { order := 3 } rfl n ()
  · have h1 : memberQ hMember = ["h"] := rfl
    simp only [List.mem_singleton, exists_eq_left, h1]
  · rw [List.mem_singleton.1 hc]
    exact hMember_gives _ _ _
  · intro n hn
    rw [show n = "h" from List.mem_singleton.1 hn]
    exact ⟨by decide, _, "m", prof, "km", _, _, rfl, rfl, rfl, rfl, rfl, rfl, rfl⟩
  · intro n hn
    rw [show n = "h" from List.mem_singleton.1 hn]
    decide +kernel

end Demo

end Verif
