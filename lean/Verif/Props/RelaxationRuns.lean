import Verif.Spec.RelaxationRuns
import Verif.Props.PointRuns
import Verif.Props.RelaxationLimits
import Verif.Props.DimsKept
import Verif.Props.Composite
/-!
# C98: a relaxed quantity in runs of the time steppers
-/

namespace Verif

/-! ## States on a grid -/

theorem onGrid_kept (L : String → Nat) : KeptBy (fun _ => OnGrid L) (fun _ => OnGrid L) := by
  have hb : ∀ {a b c : DataArray} (f : Rat → Rat → Rat), OnGrid L a → OnGrid L b → DataArray.binop f a b = .ok c →
      OnGrid L c := by
    intro a b c f ha hb h
    obtain ⟨c', h1, h2, h3⟩ := sized_binop ha.1 hb.1 f
    rw [h1] at h; cases h
    refine ⟨h2, ?_⟩
    rw [h3]
    simp only [List.mem_append, List.mem_filter, not_or, not_and_or]
    exact ⟨ha.2, .inl hb.2⟩
  exact { map := fun h _ _ => h, setAttrs := fun h _ => h, mapT := fun h _ _ => h, setAttrsT := fun h _ => h,
          binopSS := hb, binopST := hb, binopTT := hb }

/-- The program, for states with the property; it raises for others. -/
noncomputable def guarded {σ : Type} (P : State → Prop) (p : Prog σ) : Prog σ := fun s state dt =>
  haveI := Classical.propDecidable (P state)
  if P state then p s state dt else (s, .error .usage)

theorem guarded_ok {σ : Type} {P : State → Prop} {p : Prog σ} {s : σ} {state : State} {dt : Int} {r : TendOut}
    (h : (guarded P p s state dt).2 = .ok r) : P state ∧ (p s state dt).2 = .ok r := by
  unfold guarded at h
  by_cases hP : P state
  · rw [if_pos hP] at h; exact ⟨hP, h⟩
  · rw [if_neg hP] at h; cases h

theorem guarded_dicts {σ : Type} {P : State → Prop} {p : Prog σ} (hp : p.Dicts) : (guarded P p).Dicts :=
  fun s state dt r h => hp s state dt r (guarded_ok h).2

/-- A run that starts with a state of the property is the run of the guarded program. -/
theorem progs_guarded {σ : Type} {P Pt : String → DataArray → Prop} {p : Prog σ} (hp : GivesKept P Pt p) :
    ProgsRelK (Kept P) (Kept Pt) (fun a b => a = b) p
      (guarded (fun state => ∀ k a, (k, Val.da a) ∈ state → P k a) p) := by
  intro s state state' dt hs
  have h := progs_kept hp s state state' dt hs
  obtain ⟨rfl, hs⟩ := statesRel_kept.1 hs
  have e : guarded (fun state => ∀ k a, (k, Val.da a) ∈ state → P k a) p s state dt = p s state dt := by
    unfold guarded
    rw [if_pos hs]
  rw [e]
  exact h

theorem run_guarded {τ σ : Type} {M : τ → τ → Prop} {P : String → DataArray → Prop}
    {x y : Option (τ × σ × State)} (h : RunRelK M (Kept P) x y) {r : τ × σ × State} (hx : x = some r) :
    ∃ m, y = some (m, r.2) := by
  subst hx
  cases y with
  | none => exact h.elim
  | some r' =>
    obtain ⟨-, h2, h3⟩ := h
    obtain ⟨h3, -⟩ := statesRel_kept.1 h3
    exact ⟨r'.1, by rw [Prod.ext h2 h3]⟩

/-! ## The relaxation in a composite -/

theorem onGrid_wf {L : String → Nat} {state : State} (h : ∀ k a, (k, Val.da a) ∈ state → OnGrid L a) :
    state.WF ∧ state.StarFree := by
  refine ⟨fun k a hk => ?_, fun k a hk => (h k a (Dict.mem_of_get? hk)).2⟩
  obtain ⟨⟨h1, h2⟩, -⟩ := h k a (Dict.mem_of_get? hk)
  exact ⟨by rw [h2, List.length_map], h1⟩

theorem finishTendency_dict {g : Tracers} {c : Class} {i : Inst} (hi : i.packer = none) {state : State}
    {rawT rawD : Dict NDArray} {r : TendOut} (h : finishTendency g c i state rawT rawD = .ok r) :
    (Dict.keys r.1).Nodup := by
  unfold finishTendency takeTracers at h
  rw [hi] at h
  obtain ⟨tr, htr, h⟩ := Exc.bind_ok_iff.1 h
  cases htr
  obtain ⟨_, -, h⟩ := Exc.bind_ok_iff.1 h
  obtain ⟨_, -, h⟩ := Exc.bind_ok_iff.1 h
  obtain ⟨tend, ht, h⟩ := Exc.bind_ok_iff.1 h
  obtain ⟨diag, -, h⟩ := Exc.bind_ok_iff.1 h
  cases h
  exact Dict.nodup_keys_update (by simp [Dict.keys]) _

section
variable {R : Registry} {quotient : String → String} {q units : String} {σ : Type}

/-- What a successful call of a RelaxationTendencyComponent has returned. -/
theorem relaxation_call (hR : R.Faithful) (hq : QuotientOk R quotient units) {m : Comp σ}
    (hm : IsRelaxation R quotient q units m) {L : String → Nat} {state : State}
    (hs : ∀ k a, (k, Val.da a) ∈ state → OnGrid L a) {s : σ} {dt : Int} {r : TendOut}
    (h : (implicitCall m state dt s).2 = .ok r) :
    (Dict.keys r.1).Nodup ∧ (∀ k, k ∈ Dict.keys r.1 ↔ k = q) ∧
    ∃ da v e tau, Dict.get? r.1 q = some da ∧ OnGrid L da ∧ da.attrs = [("units", quotient units)] ∧
      Dict.get? state q = some (.da v) ∧ Dict.get? state ("equilibrium_" ++ q) = some (.da e) ∧
      Dict.get? state (q ++ "_relaxation_timescale") = some (.da tau) ∧
      ∃ r vu eu tu vp ep tp, R.parse (quotient units) = some r ∧ r.offset = 0 ∧
        v.attrs.get? "units" = some vu ∧ R.parse vu = some vp ∧ e.attrs.get? "units" = some eu ∧ R.parse eu = some ep ∧
        tau.attrs.get? "units" = some tu ∧ R.parse tu = some tp ∧
        ∀ ix, da.InBounds ix → tau.at' ix * tp.scale + tp.offset ≠ 0 →
          da.at' ix * r.scale * (tau.at' ix * tp.scale + tp.offset) =
            (e.at' ix * ep.scale + ep.offset) - (v.at' ix * vp.scale + vp.offset) := by
  obtain ⟨hwf, hsf⟩ := onGrid_wf hs
  obtain ⟨⟨ho1, ho2⟩, g0, g1, g, c, i, tid, name, hc, hmade, hcall⟩ := hm
  unfold implicitCall at h
  rw [ho1, ho2] at h
  simp only [Bool.false_eq_true, if_false, if_true] at h
  rw [hcall] at h
  -- the class
  have hcl : c.inProps = relaxInputs q units ∧ i.packer = none := by
    unfold relaxClass relaxRate at hc
    obtain ⟨rate, hrate, hc⟩ := Exc.bind_ok_iff.1 hc
    injection hc with hc
    subst hc
    obtain ⟨hp, -⟩ := rebuilt_ok rfl rfl hmade
    exact ⟨rfl, hp⟩
  -- the call got as far as the end
  have hprep : ∃ raw, prepare R g c i state = .ok raw := by
    unfold callTendency at h
    cases hp : prepare R g c i state with
    | error e => rw [hp] at h; cases h
    | ok raw => exact ⟨raw, rfl⟩
  obtain ⟨raw, hprep⟩ := hprep
  have hnd : (Dict.keys r.1).Nodup := by
    unfold callTendency at h
    rw [hprep] at h
    dsimp only at h
    obtain ⟨o, -, h⟩ := Exc.bind_ok_iff.1 h
    exact finishTendency_dict hcl.2 h
  unfold prepare at hprep
  obtain ⟨_, -, hprep⟩ := Exc.bind_ok_iff.1 hprep
  obtain ⟨arrs, harrs, hprep⟩ := Exc.bind_ok_iff.1 hprep
  obtain ⟨_, -, hprep⟩ := Exc.bind_ok_iff.1 hprep
  obtain ⟨time, htime, -⟩ := Exc.bind_ok_iff.1 hprep
  have hv : ValidInputs R state (relaxInputs q units) := by
    by_contra hbad
    obtain ⟨e, he⟩ := invalid_inputs_rejected R hR state (relaxInputs q units) hwf hbad
    rw [hcl.1, he] at harrs
    cases harrs
  obtain ⟨tend, diag, da, v, e, tau, k1, k2, k3, k4, k5, k6, k7, k8, k9, ⟨L', l1, l2, l3, l4⟩, k10⟩ :=
    relaxation_tendency R hR quotient g0 g1 g q units name tid c i hq hc hmade state hwf hsf time
      (Dict.get_eq_ok.1 htime) hv s
  rw [k1] at h
  cases h
  refine ⟨hnd, k2, da, v, e, tau, k3, ⟨⟨k9, ?_⟩, ?_⟩, k4, k5, k6, k7, k10⟩
  · rw [l1]
    refine List.map_congr_left fun d hd => ?_
    rcases (k8 d).1 hd with hd | hd | hd
    · rw [l2 d hd]; exact len_of_sized (hs _ _ (Dict.mem_of_get? k5)).1 hd
    · rw [l3 d hd]; exact len_of_sized (hs _ _ (Dict.mem_of_get? k6)).1 hd
    · rw [l4 d hd]; exact len_of_sized (hs _ _ (Dict.mem_of_get? k7)).1 hd
  · intro hd
    rcases (k8 "*").1 hd with hd | hd | hd
    · exact (hs _ _ (Dict.mem_of_get? k5)).2 hd
    · exact (hs _ _ (Dict.mem_of_get? k6)).2 hd
    · exact (hs _ _ (Dict.mem_of_get? k7)).2 hd

theorem runAll_split {α : Type} {fs gs : List (σ → σ × Except Err α)} : ∀ {s : σ} {rs : List α},
    (runAll (fs ++ gs) s).2 = .ok rs →
    ∃ as bs s', rs = as ++ bs ∧ (runAll fs s).2 = .ok as ∧ (runAll gs s').2 = .ok bs := by
  induction fs with
  | nil => intro s rs h; exact ⟨[], rs, s, rfl, rfl, h⟩
  | cons f fs ih =>
    intro s rs h
    simp only [List.cons_append] at h
    unfold runAll at h
    cases hf : (f s).2 with
    | error e => rw [hf] at h; cases h
    | ok r =>
      rw [hf] at h
      dsimp only at h
      cases hr : (runAll (fs ++ gs) (f s).1).2 with
      | error e => rw [hr] at h; cases h
      | ok rs' =>
        rw [hr] at h
        cases h
        obtain ⟨as, bs, s', h1, h2, h3⟩ := ih hr
        refine ⟨r :: as, bs, s', by rw [h1]; rfl, ?_, h3⟩
        unfold runAll
        rw [hf]
        dsimp only
        rw [h2]

theorem runAll_each {α : Type} {fs : List (σ → σ × Except Err α)} : ∀ {s : σ} {rs : List α}, (runAll fs s).2 = .ok rs →
    ∀ r ∈ rs, ∃ f ∈ fs, ∃ s, (f s).2 = .ok r := by
  induction fs with
  | nil => intro s rs h r hr; cases h; cases hr
  | cons f fs ih =>
    intro s rs h r hr
    unfold runAll at h
    cases hf : (f s).2 with
    | error e => rw [hf] at h; cases h
    | ok r0 =>
      rw [hf] at h
      dsimp only at h
      cases hr' : (runAll fs (f s).1).2 with
      | error e => rw [hr'] at h; cases h
      | ok rs' =>
        rw [hr'] at h
        cases h
        rcases List.mem_cons.1 hr with rfl | hr
        · exact ⟨f, List.mem_cons_self, s, hf⟩
        · obtain ⟨f', h1, h2⟩ := ih hr' r hr
          exact ⟨f', List.mem_cons_of_mem _ h1, h2⟩

/-- In a composite, `q` gets the tendency that the relaxation gives it. -/
theorem relaxation_in_composite (hR : R.Faithful) (hq : QuotientOk R quotient units) {m : Comp σ}
    (hm : IsRelaxation R quotient q units m) {L : String → Nat} {before after : List (Comp σ)}
    (hb : ∀ c ∈ before, Elsewhere L q c) (ha : ∀ c ∈ after, Elsewhere L q c) {state : State}
    (hs : ∀ k a, (k, Val.da a) ∈ state → OnGrid L a) {s : σ} {dt : Int} {r : TendOut}
    (h : (callImplicitComposite R (before ++ m :: after) s state dt).2 = .ok r) :
    ∃ s' r', (implicitCall m state dt s').2 = .ok r' ∧ Dict.get? r.1 q = Dict.get? r'.1 q ∧
      "equilibrium_" ++ q ∉ Dict.keys r.1 ∧ q ++ "_relaxation_timescale" ∉ Dict.keys r.1 := by
  unfold callImplicitComposite at h
  obtain ⟨t, d⟩ := r
  obtain ⟨rs, h1, h2, -⟩ := compositeLoop_ok (Prod.ext rfl h)
  have h1' := congrArg Prod.snd h1
  dsimp only at h1'
  rw [List.map_append, List.map_cons] at h1'
  obtain ⟨as, bs', s1, hrs, h3, h4⟩ := runAll_split h1'
  obtain ⟨ms, bs, s2, hbs, h5, h6⟩ := runAll_split (fs := [fun s => implicitCall m state dt s]) h4
  have hms : ∃ r', ms = [r'] ∧ (implicitCall m state dt s1).2 = .ok r' := by
    unfold runAll at h5
    cases hf : (implicitCall m state dt s1).2 with
    | error e => rw [hf] at h5; cases h5
    | ok r' =>
      rw [hf] at h5
      cases h5
      exact ⟨r', rfl, rfl⟩
  obtain ⟨r', rfl, hr'⟩ := hms
  obtain ⟨hnd, hkeys, -⟩ := relaxation_call hR hq hm hs hr'
  have hother : ∀ x ∈ as ++ bs, (Dict.keys x.1).Nodup ∧
      ∀ k, k = q ∨ k = "equilibrium_" ++ q ∨ k = q ++ "_relaxation_timescale" → k ∉ Dict.keys x.1 := by
    intro x hx
    rcases List.mem_append.1 hx with hx | hx
    · obtain ⟨f, hf, s, hc⟩ := runAll_each h3 x hx
      obtain ⟨c, hc', rfl⟩ := List.mem_map.1 hf
      exact ⟨(hb c hc').dict s state dt x hc, (hb c hc').others s state dt x hc⟩
    · obtain ⟨f, hf, s, hc⟩ := runAll_each h6 x hx
      obtain ⟨c, hc', rfl⟩ := List.mem_map.1 hf
      exact ⟨(ha c hc').dict s state dt x hc, (ha c hc').others s state dt x hc⟩
  have hn : ∀ dd ∈ rs.map (·.1), (Dict.keys dd).Nodup := by
    intro dd hdd
    obtain ⟨x, hx, rfl⟩ := List.mem_map.1 hdd
    rw [hrs, hbs] at hx
    simp only [List.mem_append, List.mem_singleton] at hx
    rcases hx with hx | rfl | hx
    · exact (hother x (List.mem_append.2 (.inl hx))).1
    · exact hnd
    · exact (hother x (List.mem_append.2 (.inr hx))).1
  have hnone : ∀ (l : List TendOut) k, (∀ x ∈ l, k ∉ Dict.keys x.1) → contribs k (l.map (·.1)) = [] := by
    intro l k hl
    rw [List.eq_nil_iff_forall_not_mem]
    intro c hc
    obtain ⟨dd, hdd, hg⟩ := mem_contribs.1 hc
    obtain ⟨x, hx, rfl⟩ := List.mem_map.1 hdd
    exact hl x hx (Dict.mem_keys_of_get? hg)
  have hsplit : ∀ k, contribs k (rs.map (·.1)) =
      contribs k (as.map (·.1)) ++ (contribs k [r'.1] ++ contribs k (bs.map (·.1))) := by
    intro k
    rw [hrs, hbs]
    unfold contribs
    simp only [List.map_append, List.filterMap_append, List.map_cons, List.map_nil]
  have hgone : ∀ k, k ≠ q → k = "equilibrium_" ++ q ∨ k = q ++ "_relaxation_timescale" → k ∉ Dict.keys t := by
    intro k hk hk' hmem
    have hsum := sumAll_get? hn h2 k
    rw [hsplit, hnone as k (fun x hx => (hother x (List.mem_append.2 (.inl hx))).2 k (.inr hk')),
      hnone bs k (fun x hx => (hother x (List.mem_append.2 (.inr hx))).2 k (.inr hk')),
      show contribs k [r'.1] = [] from hnone [r'] k (fun x hx hx' => by
        rw [List.mem_singleton] at hx; subst hx; exact hk ((hkeys k).1 hx'))] at hsum
    obtain ⟨a, hg⟩ := Dict.get?_of_mem_keys hmem
    rw [hg] at hsum
    cases hsum
  refine ⟨s1, r', hr', ?_, hgone _ (equilibrium_ne q) (.inl rfl), hgone _ (timescale_ne q) (.inr rfl)⟩
  have hsum := sumAll_get? hn h2 q
  obtain ⟨a, hg⟩ := Dict.get?_of_mem_keys ((hkeys q).2 rfl)
  have hone : contribs q [r'.1] = [a] := by simp [contribs, hg]
  rw [hsplit, hnone as q (fun x hx => (hother x (List.mem_append.2 (.inl hx))).2 q (.inl rfl)),
    hnone bs q (fun x hx => (hother x (List.mem_append.2 (.inr hx))).2 q (.inl rfl)), hone] at hsum
  have : some a = Dict.get? t q := Except.ok.inj hsum
  rw [← this, hg]

/-- The composite acts on `q` at one place as `(E - x) / T`. -/
theorem relaxation_acts (hR : R.Faithful) (hq : QuotientOk R quotient units) {m : Comp σ}
    (hm : IsRelaxation R quotient q units m) {L : String → Nat} {before after : List (Comp σ)}
    (hb : ∀ c ∈ before, Elsewhere L q c) (ha : ∀ c ∈ after, Elsewhere L q c) {ix : String → Nat}
    (hix : ∀ d, ix d < L d) {state0 : State} {E T : Rat} (hr : Relaxing R q ix state0 E T) (dt : Int) :
    ActsAs R (guarded (fun state => ∀ k a, (k, Val.da a) ∈ state → OnGrid L a)
        (fun s state dt => callImplicitComposite R (before ++ m :: after) s state dt)) dt q
      ["equilibrium_" ++ q, q ++ "_relaxation_timescale"] ix state0 (fun x => 1 / T * (E - x)) := by
  intro s state r t hsame hcall hconv
  obtain ⟨hs, hcall⟩ := guarded_ok hcall
  obtain ⟨s', r', hr', hget, hno1, hno2⟩ := relaxation_in_composite hR hq hm hb ha hs hcall
  obtain ⟨-, -, da, v, e, tau, k1, k2, k3, k4, k5, k6, rr, vu, eu, tu, vp, ep, tp, p1, p2, p3, p4, p5, p6, p7, p8, p9⟩ :=
    relaxation_call hR hq hm hs hr'
  obtain ⟨hkeys, hconvs⟩ := convertTendencies_ok hconv
  rw [k1] at hget
  obtain ⟨w, hw, hcw⟩ := hconvs q da hget
  refine ⟨Dict.mem_keys_of_get? hw, ?_, ?_⟩
  · intro k hk
    rw [hkeys]
    simp only [List.mem_cons, List.not_mem_nil, or_false] at hk
    rcases hk with rfl | rfl
    · exact hno1
    · exact hno2
  · -- units
    obtain ⟨⟨u0, eu0, hu0, heu0, hE⟩, ⟨tu0, htu0, hT⟩, hpos, hper⟩ := hr
    obtain ⟨a', b', c', q1, q2, q3, q4, q5, q6⟩ := hper u0 hu0
    have huv : vu = u0 := by
      obtain ⟨x, hx, hxu⟩ := hsame.units q (.inl rfl) u0 hu0
      rw [k4] at hx; cases hx
      rw [p3] at hxu; cases hxu; rfl
    have hue : eu = eu0 := by
      obtain ⟨x, hx, hxu⟩ := hsame.units ("equilibrium_" ++ q) (.inr (by simp)) eu0 heu0
      rw [k5] at hx; cases hx
      rw [p5] at hxu; cases hxu; rfl
    have hut : tu = tu0 := by
      obtain ⟨x, hx, hxu⟩ := hsame.units (q ++ "_relaxation_timescale") (.inr (by simp)) tu0 htu0
      rw [k6] at hx; cases hx
      rw [p7] at hxu; cases hxu; rfl
    subst huv hue hut
    have hve : e.at' ix = State.val state0 ("equilibrium_" ++ q) ix := by
      have := hsame.value ("equilibrium_" ++ q) (by simp)
      rw [← this]; unfold State.val; rw [k5]
    have hvt : tau.at' ix = State.val state0 (q ++ "_relaxation_timescale") ix := by
      have := hsame.value (q ++ "_relaxation_timescale") (by simp)
      rw [← this]; unfold State.val; rw [k6]
    have hvv : v.at' ix = State.val state q ix := by unfold State.val; rw [k4]
    rw [← hve] at hE
    rw [← hvt] at hT
    obtain ⟨x1, x2, e1, e2, -, e3⟩ := hE
    obtain ⟨y1, y2, f1, f2, -, f3⟩ := hT
    rw [p4] at e1 q2; cases e1; cases q2
    rw [p6] at e2; cases e2
    rw [p8] at f2; cases f2
    rw [q3] at f1; cases f1
    -- conversion
    have hc : da.toUnits R (vu ++ " s^-1") = .ok w := by
      unfold convertTendency at hcw
      rw [k3] at hcw
      have : Dict.get? ([("units", quotient units)] : Dict String) "units" = some (quotient units) := rfl
      rw [this] at hcw
      dsimp only at hcw
      unfold State.da at hcw
      rw [k4] at hcw
      obtain ⟨x, hx, hcw⟩ := Exc.bind_ok_iff.1 hcw
      cases hx
      obtain ⟨u, hu, hcw⟩ := Exc.bind_ok_iff.1 hcw
      rw [Dict.get_eq_ok, p3] at hu
      cases hu
      exact hcw
    obtain ⟨own, a, b, g1, g2, g3, -, g4⟩ := toUnits_at hR hc ix
    rw [k3] at g1
    have : own = quotient units := by
      have h' : Dict.get? ([("units", quotient units)] : Dict String) "units" = some (quotient units) := rfl
      rw [h'] at g1; cases g1; rfl
    subst this
    rw [p1] at g2; cases g2
    rw [q1] at g3; cases g3
    have hin : da.InBounds ix := by
      unfold DataArray.InBounds
      rw [k2.1.2, inB_map]
      exact fun d _ => hix d
    have hTs : T * c'.scale = tau.at' ix * tp.scale + tp.offset := by rw [← f3, q6, add_zero]
    have hTs0 : T * c'.scale ≠ 0 := mul_ne_zero hpos.ne' c'.scale_pos.ne'
    have := p9 ix hin (by rw [← hTs]; exact hTs0)
    rw [← hTs, ← e3] at this
    rw [q5, p2, add_zero, add_zero] at g4
    have hval : tval t q ix = w.at' ix := by unfold tval; rw [hw]
    rw [hval, ← hvv]
    dsimp only
    rw [one_div, inv_mul_eq_div, eq_div_iff hpos.ne']
    have key : (w.at' ix * T) * vp.scale = (E - v.at' ix) * vp.scale := by
      rw [← q4, mul_comm (w.at' ix * T)]
      rw [← g4, ← q4] at this
      linear_combination this
    exact mul_right_cancel₀ vp.scale_pos.ne' key

theorem relaxation_gives_grid (hR : R.Faithful) (hq : QuotientOk R quotient units) {m : Comp σ}
    (hm : IsRelaxation R quotient q units m) {L : String → Nat} {before after : List (Comp σ)}
    (hb : ∀ c ∈ before, Elsewhere L q c) (ha : ∀ c ∈ after, Elsewhere L q c) :
    GivesKept (fun _ => OnGrid L) (fun _ => OnGrid L)
      (fun s state dt => callImplicitComposite R (before ++ m :: after) s state dt) := by
  refine composite_keeps (onGrid_kept L) fun c hc => ?_
  intro s state dt r hs h k a hka
  rcases List.mem_append.1 hc with hc | hc
  · exact (hb c hc).grid s state dt r hs h k a hka
  · rcases List.mem_cons.1 hc with rfl | hc
    · obtain ⟨hnd, hkeys, da, -, -, -, k1, k2, -⟩ := relaxation_call hR hq hm hs h
      have hk : k = q := (hkeys k).1 (Dict.mem_keys_of_get? (Dict.get?_of_mem hnd hka))
      subst hk
      have := Dict.get?_of_mem hnd hka
      rw [k1] at this
      cases this
      exact k2
    · exact (ha c hc).grid s state dt r hs h k a hka

/-! ## Runs -/

/-- **C98.**  A run of `n` steps of AdamsBashforth of any order, whatever other components of
the composite do elsewhere: at every place of the grid the distance of the quantity from its
equilibrium is that at the start times the factor that the scheme makes of the timestep in
timescales of that place.  The value has the units it had, the equilibrium the value it had. -/
theorem ab_relaxed_run (hR : R.Faithful) (hq : QuotientOk R quotient units) {m : Comp σ}
    (hm : IsRelaxation R quotient q units m) {L : String → Nat} {before after : List (Comp σ)}
    (hb : ∀ c ∈ before, Elsewhere L q c) (ha : ∀ c ∈ after, Elsewhere L q c) {ix : String → Nat}
    (hix : ∀ d, ix d < L d) {state : State} (hs : ∀ k a, (k, Val.da a) ∈ state → OnGrid L a) {E T : Rat}
    (hr : Relaxing R q ix state E T) (inProps outProps : PropDict) (inst : String) (tid : Bool) (dt : Int) (k : Int)
    (ab : AB) (hk : AB.make k = .ok ab) (n : Nat) (s s' : σ) (final : State) (ab' : AB)
    (h : runSteps (tsCall R inProps outProps inst tid (abCall R
      (fun s state dt => callImplicitComposite R (before ++ m :: after) s state dt))) dt n ab s state =
        some (ab', s', final)) :
    State.val final q ix - E = abDecay ab.order (seconds dt / T) n * (State.val state q ix - E) ∧
      SameHere q ["equilibrium_" ++ q, q ++ "_relaxation_timescale"] ix state final := by
  obtain ⟨o, rfl⟩ : ∃ o, ab = { order := o } := by
    unfold AB.make at hk
    split at hk
    · exact ⟨_, (Except.ok.inj hk).symm⟩
    · cases hk
  obtain ⟨m', h'⟩ := run_guarded ((runs_keyed (R := R) (onGrid_kept L).stand
    (progs_guarded (relaxation_gives_grid hR hq hm hb ha)) inProps outProps inst tid s
    (statesRel_kept.2 ⟨rfl, hs⟩) dt n).1 o) h
  obtain ⟨h1, h2⟩ := ab_point_run (relaxation_acts hR hq hm hb ha hix hr dt) k _ hk _
    (ab_distance o (seconds dt) (1 / T) E (State.val state q ix)) (by simp [abDecay_zero]) n s s' final m' h'
  refine ⟨?_, h2⟩
  rw [h1, mul_one_div]
  ring

/-- **C98.**  The same for Leapfrog with any strength and alpha of the filter. -/
theorem lf_relaxed_run (hR : R.Faithful) (hq : QuotientOk R quotient units) {m : Comp σ}
    (hm : IsRelaxation R quotient q units m) {L : String → Nat} {before after : List (Comp σ)}
    (hb : ∀ c ∈ before, Elsewhere L q c) (ha : ∀ c ∈ after, Elsewhere L q c) {ix : String → Nat}
    (hix : ∀ d, ix d < L d) {state : State} (hs : ∀ k a, (k, Val.da a) ∈ state → OnGrid L a) {E T : Rat}
    (hr : Relaxing R q ix state E T) (inProps outProps : PropDict) (inst : String) (tid : Bool) (dt : Int)
    (strength alpha : Rat) (n : Nat) (s s' : σ) (final : State) (lf' : LF)
    (h : runSteps (tsCall R inProps outProps inst tid (LF.call R
      (fun s state dt => callImplicitComposite R (before ++ m :: after) s state dt))) dt n
        { strength := strength, alpha := alpha } s state = some (lf', s', final)) :
    State.val final q ix - E = lfDecay strength alpha (seconds dt / T) n * (State.val state q ix - E) ∧
      SameHere q ["equilibrium_" ++ q, q ++ "_relaxation_timescale"] ix state final := by
  obtain ⟨m', h'⟩ := run_guarded ((runs_keyed (R := R) (onGrid_kept L).stand
    (progs_guarded (relaxation_gives_grid hR hq hm hb ha)) inProps outProps inst tid s
    (statesRel_kept.2 ⟨rfl, hs⟩) dt n).2.1 strength alpha) h
  obtain ⟨u, -, hu, -⟩ := hr.equilibrium
  obtain ⟨h1, h2⟩ := lf_point_run (guarded_dicts (composite_prog_dicts R _))
    (relaxation_acts hR hq hm hb ha hix hr dt) hu strength alpha _ _
    (lf_distance strength alpha (seconds dt) (1 / T) E (State.val state q ix)) (by simp [lfDecay]) n s s' final m' h'
  refine ⟨?_, h2⟩
  rw [h1, mul_one_div]
  ring

/-- **C98.**  The same for SSPRungeKutta with two or three stages. -/
theorem ssprk_relaxed_run (hR : R.Faithful) (hq : QuotientOk R quotient units) {m : Comp σ}
    (hm : IsRelaxation R quotient q units m) {L : String → Nat} {before after : List (Comp σ)}
    (hb : ∀ c ∈ before, Elsewhere L q c) (ha : ∀ c ∈ after, Elsewhere L q c) {ix : String → Nat}
    (hix : ∀ d, ix d < L d) {state : State} (hs : ∀ k a, (k, Val.da a) ∈ state → OnGrid L a) {E T : Rat}
    (hr : Relaxing R q ix state E T) (inProps outProps : PropDict) (inst : String) (tid : Bool) (dt : Int)
    (three : Bool) (n : Nat) (s s' : σ) (final : State) (ab' : AB) (hnd : (Dict.keys state).Nodup) (hT : state.TimeOk)
    (h : runSteps (tsCall R inProps outProps inst tid (sspCall R
      (fun s state dt => callImplicitComposite R (before ++ m :: after) s state dt) three)) dt n
        { order := 1 } s state = some (ab', s', final)) :
    State.val final q ix - E = rkDecay three (seconds dt / T) ^ n * (State.val state q ix - E) ∧
      SameHere q ["equilibrium_" ++ q, q ++ "_relaxation_timescale"] ix state final := by
  obtain ⟨m', h'⟩ := run_guarded ((runs_keyed (R := R) (onGrid_kept L).stand
    (progs_guarded (relaxation_gives_grid hR hq hm hb ha)) inProps outProps inst tid s
    (statesRel_kept.2 ⟨rfl, hs⟩) dt n).2.2 three) h
  obtain ⟨h1, h2⟩ := ssprk_point_run (guarded_dicts (composite_prog_dicts R _))
    (relaxation_acts hR hq hm hb ha hix hr dt) three n s s' final m' hnd hT h'
  refine ⟨?_, h2⟩
  rw [h1, rk_distance, mul_one_div]
  ring

/-! ## Limits -/

/-- **C98.**  AdamsBashforth: as the number of steps grows the quantity approaches its
equilibrium, if the timestep is less than the timescale times 2, 1, 6/11 and 1/20 for the
orders 1 to 4. -/
theorem ab_reaches_equilibrium (hR : R.Faithful) (hq : QuotientOk R quotient units) {m : Comp σ}
    (hm : IsRelaxation R quotient q units m) {L : String → Nat} {before after : List (Comp σ)}
    (hb : ∀ c ∈ before, Elsewhere L q c) (ha : ∀ c ∈ after, Elsewhere L q c) {ix : String → Nat}
    (hix : ∀ d, ix d < L d) {state : State} (hs : ∀ k a, (k, Val.da a) ∈ state → OnGrid L a) {E T : Rat}
    (hr : Relaxing R q ix state E T) (inProps outProps : PropDict) (inst : String) (tid : Bool) (dt : Int)
    (hdt : 0 < seconds dt) (k : Int) (ab : AB) (hk : AB.make k = .ok ab) (hlim : seconds dt < abLimit ab.order * T)
    (s : σ) (run : Nat → AB × σ × State)
    (h : ∀ n, runSteps (tsCall R inProps outProps inst tid (abCall R
      (fun s state dt => callImplicitComposite R (before ++ m :: after) s state dt))) dt n ab s state = some (run n)) :
    Vanishes (fun n => State.val (run n).2.2 q ix - E) := by
  have e : (fun n => State.val (run n).2.2 q ix - E) =
      fun n => abDecay ab.order (seconds dt / T) n * (State.val state q ix - E) := funext fun n =>
    (ab_relaxed_run hR hq hm hb ha hix hs hr inProps outProps inst tid dt k ab hk n s _ _ _ (h n)).1
  rw [e]
  obtain ⟨k1, k4, -⟩ := AB.make_order hk
  exact (abDecay_vanishes k1 k4 (div_pos hdt hr.positive) (by rwa [div_lt_iff₀ hr.positive])).mul _

/-- **C98.**  SSPRungeKutta: the quantity approaches its equilibrium if the timestep is less
than 2 timescales (two stages) or 5/2 (three stages). -/
theorem ssprk_reaches_equilibrium (hR : R.Faithful) (hq : QuotientOk R quotient units) {m : Comp σ}
    (hm : IsRelaxation R quotient q units m) {L : String → Nat} {before after : List (Comp σ)}
    (hb : ∀ c ∈ before, Elsewhere L q c) (ha : ∀ c ∈ after, Elsewhere L q c) {ix : String → Nat}
    (hix : ∀ d, ix d < L d) {state : State} (hs : ∀ k a, (k, Val.da a) ∈ state → OnGrid L a) {E T : Rat}
    (hr : Relaxing R q ix state E T) (inProps outProps : PropDict) (inst : String) (tid : Bool) (dt : Int)
    (hdt : 0 < seconds dt) (three : Bool) (hlim : seconds dt < (if three then 5 / 2 else 2) * T)
    (hnd : (Dict.keys state).Nodup) (hT : state.TimeOk) (s : σ) (run : Nat → AB × σ × State)
    (h : ∀ n, runSteps (tsCall R inProps outProps inst tid (sspCall R
      (fun s state dt => callImplicitComposite R (before ++ m :: after) s state dt) three)) dt n
        { order := 1 } s state = some (run n)) :
    Vanishes (fun n => State.val (run n).2.2 q ix - E) := by
  have e : (fun n => State.val (run n).2.2 q ix - E) =
      fun n => rkDecay three (seconds dt / T) ^ n * (State.val state q ix - E) := funext fun n =>
    (ssprk_relaxed_run hR hq hm hb ha hix hs hr inProps outProps inst tid dt three n s _ _ _ hnd hT (h n)).1
  rw [e]
  exact (vanishes_pow (rkDecay_lt (div_pos hdt hr.positive) (by rwa [div_lt_iff₀ hr.positive]))).mul _

/-- **C98.**  SSPRungeKutta with a timestep of at most the timescale: after any number of steps
the quantity is on the side of the equilibrium where it was, and no further from it. -/
theorem ssprk_no_overshoot (hR : R.Faithful) (hq : QuotientOk R quotient units) {m : Comp σ}
    (hm : IsRelaxation R quotient q units m) {L : String → Nat} {before after : List (Comp σ)}
    (hb : ∀ c ∈ before, Elsewhere L q c) (ha : ∀ c ∈ after, Elsewhere L q c) {ix : String → Nat}
    (hix : ∀ d, ix d < L d) {state : State} (hs : ∀ k a, (k, Val.da a) ∈ state → OnGrid L a) {E T : Rat}
    (hr : Relaxing R q ix state E T) (inProps outProps : PropDict) (inst : String) (tid : Bool) (dt : Int)
    (hdt : 0 < seconds dt) (hlim : seconds dt ≤ T) (three : Bool) (n : Nat) (s s' : σ) (final : State) (ab' : AB)
    (hnd : (Dict.keys state).Nodup) (hT : state.TimeOk)
    (h : runSteps (tsCall R inProps outProps inst tid (sspCall R
      (fun s state dt => callImplicitComposite R (before ++ m :: after) s state dt) three)) dt n
        { order := 1 } s state = some (ab', s', final)) :
    (State.val state q ix ≤ E → State.val state q ix ≤ State.val final q ix ∧ State.val final q ix ≤ E) ∧
    (E ≤ State.val state q ix → E ≤ State.val final q ix ∧ State.val final q ix ≤ State.val state q ix) := by
  have e := (ssprk_relaxed_run hR hq hm hb ha hix hs hr inProps outProps inst tid dt three n s _ _ _ hnd hT h).1
  have hz : seconds dt / T ≤ 1 := by rwa [div_le_one hr.positive]
  have h0 := div_pos hdt hr.positive
  have p1 : 0 ≤ rkDecay three (seconds dt / T) ^ n := pow_nonneg (rkDecay_pos h0 hz).le _
  have p2 : rkDecay three (seconds dt / T) ^ n ≤ 1 :=
    pow_le_one₀ (rkDecay_pos h0 hz).le
      (abs_lt.1 (rkDecay_lt h0 (lt_of_le_of_lt hz (by cases three <;> norm_num)))).2.le
  refine ⟨fun hle => ⟨?_, ?_⟩, fun hle => ⟨?_, ?_⟩⟩ <;> nlinarith

/-- **C98.**  Leapfrog with a filter of strength ν from 0 to 1 and alpha not negative: the
quantity approaches its equilibrium if and only if the timestep in timescales is less than
2ν / (2 - ν + 2αν), or it was at its equilibrium at the start; with a longer timestep its
distance from the equilibrium grows beyond every bound.  Without filter (ν = 0) it does so
whatever the timestep. -/
theorem lf_reaches_equilibrium (hR : R.Faithful) (hq : QuotientOk R quotient units) {m : Comp σ}
    (hm : IsRelaxation R quotient q units m) {L : String → Nat} {before after : List (Comp σ)}
    (hb : ∀ c ∈ before, Elsewhere L q c) (ha : ∀ c ∈ after, Elsewhere L q c) {ix : String → Nat}
    (hix : ∀ d, ix d < L d) {state : State} (hs : ∀ k a, (k, Val.da a) ∈ state → OnGrid L a) {E T : Rat}
    (hr : Relaxing R q ix state E T) (inProps outProps : PropDict) (inst : String) (tid : Bool) (dt : Int)
    (hdt : 0 < seconds dt) (ν α : Rat) (hν0 : 0 ≤ ν) (hν : ν ≤ 1) (hα : 0 ≤ α) (hαν : (1 - α) * ν < 1)
    (s : σ) (run : Nat → LF × σ × State)
    (h : ∀ n, runSteps (tsCall R inProps outProps inst tid (LF.call R
      (fun s state dt => callImplicitComposite R (before ++ m :: after) s state dt))) dt n
        { strength := ν, alpha := α } s state = some (run n)) :
    (Vanishes (fun n => State.val (run n).2.2 q ix - E) ↔
      seconds dt * (2 - ν + 2 * α * ν) < 2 * ν * T ∨ State.val state q ix = E) ∧
    (2 * ν * T < seconds dt * (2 - ν + 2 * α * ν) → State.val state q ix ≠ E →
      Unbounded (fun n => State.val (run n).2.2 q ix - E)) := by
  have e : (fun n => State.val (run n).2.2 q ix - E) =
      fun n => lfDecay ν α (seconds dt / T) n * (State.val state q ix - E) := funext fun n =>
    (lf_relaxed_run hR hq hm hb ha hix hs hr inProps outProps inst tid dt ν α n s _ _ _ (h n)).1
  rw [e]
  have h0 := div_pos hdt hr.positive
  have hz1 : seconds dt / T * (2 - ν + 2 * α * ν) < 2 * ν ↔ seconds dt * (2 - ν + 2 * α * ν) < 2 * ν * T := by
    rw [div_mul_eq_mul_div, div_lt_iff₀ hr.positive]
  have hz2 : 2 * ν < seconds dt / T * (2 - ν + 2 * α * ν) ↔ 2 * ν * T < seconds dt * (2 - ν + 2 * α * ν) := by
    rw [div_mul_eq_mul_div, lt_div_iff₀ hr.positive]
  refine ⟨⟨fun hv => ?_, ?_⟩, fun hlt hne => ?_⟩
  · by_contra hcon
    rw [not_or, ← hz1] at hcon
    obtain ⟨hn, hne⟩ := hcon
    have hne' : State.val state q ix - E ≠ 0 := sub_ne_zero.2 hne
    refine (lfDecay_not_vanishing hν hν0 hα hαν h0 (not_lt.1 hn)).1 ?_
    have := hv.mul (State.val state q ix - E)⁻¹
    simpa only [mul_assoc, mul_inv_cancel₀ hne', mul_one] using this
  · rintro (hlt | heq)
    · exact (lfDecay_vanishes hν hν0 hα h0 (hz1.2 hlt)).mul _
    · intro ε hε
      exact ⟨0, fun n _ => by simp [heq, hε]⟩
  · exact ((lfDecay_not_vanishing hν hν0 hα hαν h0 (hz2.2 hlt).le).2 (hz2.2 hlt)).mul (sub_ne_zero.2 hne)

end

/-- **C98.**  With the default filter of Leapfrog (strength 0.05, alpha 0.5,
timesteppers.py:213-214) the limit of the timestep is one twentieth of the timescale. -/
theorem leapfrog_default_limit (dt T : Rat) :
    dt * (2 - ({} : LF).strength + 2 * ({} : LF).alpha * ({} : LF).strength) < 2 * ({} : LF).strength * T ↔ dt < T / 20 := by
  have h1 : ({} : LF).strength = 1 / 20 := rfl
  have h2 : ({} : LF).alpha = 1 / 2 := rfl
  rw [h1, h2]
  constructor <;> intro h <;> linarith

/-! ## Examples -/

namespace Demo

/-- The relaxation of `T` as a member of a composite. -/
def relaxMember : Comp Unit where
  cls := relaxWith "T" "K" "K s^-1"
  obj := tendObj
  callT := callTendency reg {} (relaxWith "T" "K" "K s^-1") relaxInst (relaxCall "T")
  callI := fun s _ _ => (s, .error .usage)

/-- A component that raises `h`. -/
def hMember : Comp Unit where
  cls := { kind := .tendency, inProps := [], outProps := [("h", { dims := some ["z"], units := some "m s^-1" })],
           diagProps := [] }
  obj := tendObj
  callT := fun s _ => (s, .ok ([("h", ⟨["z"], ⟨[3], fun _ => 5⟩, [("units", "m s^-1")]⟩)], []))
  callI := fun s _ _ => (s, .error .usage)

def relaxRunState : State := ("h", .da prof) :: relaxState

/-- Lengths of the dimensions and a place. -/
def relaxL (d : String) : Nat := if d = "z" then 3 else 2
def relaxIx (d : String) : Nat := if d = "z" then 2 else if d = "x" then 1 else 0

theorem relaxIx_lt (d : String) : relaxIx d < relaxL d := by
  unfold relaxIx relaxL
  split
  · decide
  · split <;> decide

theorem relaxMember_is : IsRelaxation reg (· ++ " s^-1") "T" "K" relaxMember :=
  ⟨⟨by decide, by decide⟩, {}, {}, {}, _, _, true, "relax", rfl, rfl, rfl⟩

theorem hMember_elsewhere : Elsewhere relaxL "T" hMember := by
  have key : ∀ s state dt r, (implicitCall hMember state dt s).2 = .ok r →
      r.1 = [("h", ⟨["z"], ⟨[3], fun _ => 5⟩, [("units", "m s^-1")]⟩)] := by
    intro s state dt r h
    have : (implicitCall hMember state dt s).2 =
        .ok ([("h", ⟨["z"], ⟨[3], fun _ => 5⟩, [("units", "m s^-1")]⟩)], []) := rfl
    rw [this] at h
    cases h
    rfl
  refine ⟨fun s state dt r h => ?_, fun s state dt r h k hk => ?_, fun s state dt r _ h k a hka => ?_⟩
  · rw [key s state dt r h]; decide
  · rw [key s state dt r h]
    rcases hk with rfl | rfl | rfl <;> decide
  · rw [key s state dt r h, List.mem_singleton] at hka
    cases hka
    exact ⟨⟨by decide, by decide⟩, by decide⟩

theorem relaxRunState_grid : ∀ k a, (k, Val.da a) ∈ relaxRunState → OnGrid relaxL a := by
  intro k a h
  simp only [relaxRunState, relaxState, List.mem_cons, Prod.mk.injEq, List.not_mem_nil, or_false] at h
  rcases h with ⟨-, h⟩ | ⟨-, h⟩ | ⟨-, h⟩ | ⟨-, h⟩ | ⟨-, h⟩ <;> cases h <;>
    exact ⟨⟨by decide, by decide⟩, by decide⟩

/-- At x = 1, z = 2, y = 0: the equilibrium of 2 degC is 275.15 K, the timescale 20 s. -/
theorem relaxing_here : Relaxing reg "T" relaxIx relaxRunState (27515 / 100) 20 where
  equilibrium := ⟨"K", "degC", ⟨_, rfl, rfl⟩, ⟨_, rfl, rfl⟩, _, _, rfl, rfl, rfl, by decide +kernel⟩
  timescale := ⟨"s", ⟨_, rfl, rfl⟩, _, _, rfl, rfl, rfl, by decide +kernel⟩
  positive := by norm_num
  perSecond := by
    rintro u ⟨x, h1, h2⟩
    have : Dict.get? relaxRunState "T" = some (.da temp) := rfl
    rw [this] at h1
    cases h1
    have : Dict.get? temp.attrs "units" = some "K" := rfl
    rw [this] at h2
    cases h2
    exact ⟨_, _, _, rfl, rfl, rfl, by decide +kernel, rfl, rfl⟩

theorem quotient_K : QuotientOk reg (· ++ " s^-1") "K" := ⟨_, _, _, rfl, rfl, rfl, by decide +kernel, rfl, rfl⟩

def relaxProg : Prog Unit := fun s state dt => callImplicitComposite reg ([hMember] ++ relaxMember :: []) s state dt

/-- Two steps of the second-order Adams-Bashforth scheme with a timestep of one second: the
distance is 723/800 of that at the start. -/
example : ∃ r, runSteps (tsCall reg [] [] "AB" false (abCall reg relaxProg)) 1000000 2 { order := 2 } () relaxRunState = some r ∧
    State.val r.2.2 "T" relaxIx - 27515 / 100 = 723 / 800 * (120 - 27515 / 100) := by
  have h : (match runSteps (tsCall reg [] [] "AB" false (abCall reg relaxProg)) 1000000 2 { order := 2 } () relaxRunState with
    | some _ => true
    | none => false) = true := by decide +kernel
  cases hr : runSteps (tsCall reg [] [] "AB" false (abCall reg relaxProg)) 1000000 2 { order := 2 } () relaxRunState with
  | none => rw [hr] at h; cases h
  | some r =>
    refine ⟨r, rfl, ?_⟩
    have := (ab_relaxed_run reg_faithful quotient_K relaxMember_is (by simpa using hMember_elsewhere) (by simp)
      relaxIx_lt relaxRunState_grid relaxing_here [] [] "AB" false 1000000 2 _ rfl 2 () _ _ _ hr).1
    rw [this]
    have e1 : seconds 1000000 / 20 = 1 / 20 := by decide +kernel
    have e2 : State.val relaxRunState "T" relaxIx = 120 := by decide +kernel
    have e3 : abDecay 2 (1 / 20) 2 = 723 / 800 := by decide +kernel
    rw [e1, e2]
    exact congrArg (· * _) e3

/-- Three steps of Leapfrog and two of SSPRungeKutta. -/
example : (∃ r, runSteps (tsCall reg [] [] "LF" false (LF.call reg relaxProg)) 1000000 3
      { strength := 1 / 20, alpha := 1 / 2 } () relaxRunState = some r ∧
    State.val r.2.2 "T" relaxIx - 27515 / 100 = lfDecay (1 / 20) (1 / 2) (1 / 20) 3 * (120 - 27515 / 100)) ∧
    ∃ r, runSteps (tsCall reg [] [] "SSP" false (sspCall reg relaxProg true)) 1000000 2 { order := 1 } () relaxRunState =
      some r ∧ State.val r.2.2 "T" relaxIx - 27515 / 100 = rkDecay true (1 / 20) ^ 2 * (120 - 27515 / 100) ∧
        120 ≤ State.val r.2.2 "T" relaxIx := by
  have e1 : seconds 1000000 / 20 = 1 / 20 := by decide +kernel
  have e2 : State.val relaxRunState "T" relaxIx = 120 := by decide +kernel
  constructor
  · have h : (match runSteps (tsCall reg [] [] "LF" false (LF.call reg relaxProg)) 1000000 3
        { strength := 1 / 20, alpha := 1 / 2 } () relaxRunState with
      | some _ => true
      | none => false) = true := by decide +kernel
    cases hr : runSteps (tsCall reg [] [] "LF" false (LF.call reg relaxProg)) 1000000 3
        { strength := 1 / 20, alpha := 1 / 2 } () relaxRunState with
    | none => rw [hr] at h; cases h
    | some r =>
      refine ⟨r, rfl, ?_⟩
      have := (lf_relaxed_run reg_faithful quotient_K relaxMember_is (by simpa using hMember_elsewhere) (by simp)
        relaxIx_lt relaxRunState_grid relaxing_here [] [] "LF" false 1000000 (1 / 20) (1 / 2) 3 () _ _ _ hr).1
      rw [this, e1, e2]
  · have h : (match runSteps (tsCall reg [] [] "SSP" false (sspCall reg relaxProg true)) 1000000 2 { order := 1 } ()
        relaxRunState with
      | some _ => true
      | none => false) = true := by decide +kernel
    cases hr : runSteps (tsCall reg [] [] "SSP" false (sspCall reg relaxProg true)) 1000000 2 { order := 1 } ()
        relaxRunState with
    | none => rw [hr] at h; cases h
    | some r =>
      have hnd : (Dict.keys relaxRunState).Nodup := by decide
      have hT : relaxRunState.TimeOk := by
        intro a h
        have : Dict.get? relaxRunState "time" = some (.time 0) := rfl
        rw [this] at h
        cases h
      refine ⟨r, rfl, ?_, ?_⟩
      · have := (ssprk_relaxed_run reg_faithful quotient_K relaxMember_is (by simpa using hMember_elsewhere) (by simp)
          relaxIx_lt relaxRunState_grid relaxing_here [] [] "SSP" false 1000000 true 2 () _ _ _ hnd hT hr).1
        rw [this, e1, e2]
      · have := ((ssprk_no_overshoot reg_faithful quotient_K relaxMember_is (by simpa using hMember_elsewhere) (by simp)
          relaxIx_lt relaxRunState_grid relaxing_here [] [] "SSP" false 1000000 (by decide +kernel) (by decide +kernel)
          true 2 () _ _ _ hnd hT hr).1 (by rw [e2]; norm_num)).1
        rwa [e2] at this

end Demo

end Verif
