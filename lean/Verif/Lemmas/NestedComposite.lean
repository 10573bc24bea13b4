import Verif.Props.Composite
import Verif.Lemmas.ComponentCalls
/-! # Lemmas about composites of composites -/

namespace Verif

namespace Dict

theorem nil_update {α : Type} {e : Dict α} (he : e.keys.Nodup) : Dict.update [] e = e := by
  have := Dict.update_eq_append (d := ([] : Dict α)) (e := e) he (by simp)
  simpa using this

theorem set_set {α : Type} (d : Dict α) (k : String) (v w : α) : (d.set k v).set k w = d.set k w := by
  induction d with
  | nil => simp [Dict.set]
  | cons kv d ih =>
    obtain ⟨a, x⟩ := kv
    by_cases h : a = k
    · subst h; simp [Dict.set]
    · simp [Dict.set, h, ih]

/-- Two assignments to different keys commute if the first key is present already. -/
theorem set_comm {α : Type} (d : Dict α) {k q : String} (v w : α) (hne : k ≠ q) (hk : k ∈ d.keys) :
    (d.set k v).set q w = (d.set q w).set k v := by
  induction d with
  | nil => cases hk
  | cons kv d ih =>
    obtain ⟨a, x⟩ := kv
    by_cases h : a = k
    · subst h
      simp [Dict.set, hne]
    · have hk' : k ∈ keys d := by
        rcases List.mem_cons.1 hk with e | e
        · exact absurd e.symm h
        · exact e
      by_cases h2 : a = q
      · subst h2; simp [Dict.set, h]
      · simp [Dict.set, h, h2, ih hk']

theorem update_set_comm {α : Type} (d e : Dict α) {k : String} (v : α) (hk : k ∈ d.keys) (hke : k ∉ e.keys) :
    (d.set k v).update e = (d.update e).set k v := by
  induction e generalizing d with
  | nil => rfl
  | cons kv e ih =>
    obtain ⟨q, w⟩ := kv
    rw [keys_cons, List.mem_cons, not_or] at hke
    rw [update_cons, update_cons, set_comm d v w hke.1 hk]
    exact ih (d.set q w) (by rw [mem_keys_set]; exact Or.inr hk) hke.2

/-- Updating with an assigned dictionary is updating, then assigning. -/
theorem update_set {α : Type} (d : Dict α) {e : Dict α} (he : e.keys.Nodup) (k : String) (v : α) :
    d.update (e.set k v) = (d.update e).set k v := by
  induction e generalizing d with
  | nil => rfl
  | cons kv e ih =>
    obtain ⟨q, w⟩ := kv
    rw [keys_cons, List.nodup_cons] at he
    by_cases h : q = k
    · subst h
      have : set ((q, w) :: e) q v = (q, v) :: e := by simp [Dict.set]
      rw [this, update_cons, update_cons]
      dsimp only
      rw [← update_set_comm _ _ v (by rw [mem_keys_set]; exact Or.inl rfl) he.1, set_set]
    · have : set ((q, w) :: e) k v = (q, w) :: set e k v := by simp [Dict.set, h]
      rw [this, update_cons, update_cons]
      exact ih _ he.2

theorem update_update {α : Type} (d : Dict α) {e : Dict α} (he : e.keys.Nodup) (f : Dict α) :
    d.update (e.update f) = (d.update e).update f := by
  induction f generalizing e with
  | nil => rfl
  | cons kv f ih =>
    rw [update_cons, update_cons, ih (nodup_keys_set he _ _), update_set _ he]

end Dict

theorem foldl_update_from (rs : List TendOut) (d : Dict DataArray) {e : Dict DataArray} (he : e.keys.Nodup) :
    rs.foldl (fun d r => d.update r.2) (d.update e) = d.update (rs.foldl (fun d r => d.update r.2) e) := by
  induction rs generalizing e with
  | nil => rfl
  | cons r rs ih =>
    rw [List.foldl_cons, List.foldl_cons, ← Dict.update_update _ he]
    exact ih (Dict.nodup_keys_update he _)

theorem runAll_cons {σ α : Type} (f : σ → σ × Except Err α) (fs : List (σ → σ × Except Err α)) (s s' : σ)
    (rs : List α) : runAll (f :: fs) s = (s', .ok rs) ↔
      ∃ s1 r rs', f s = (s1, .ok r) ∧ runAll fs s1 = (s', .ok rs') ∧ rs = r :: rs' := by
  rw [runAll]
  cases hr : (f s).2 with
  | error e =>
    dsimp only
    constructor
    · intro h; cases h
    · rintro ⟨s1, r, _, h, _⟩; rw [h] at hr; cases hr
  | ok r =>
    dsimp only
    cases hrs : (runAll fs (f s).1).2 with
    | error e =>
      dsimp only
      constructor
      · intro h; cases h
      · rintro ⟨s1, r', _, h, h2, _⟩
        rw [h] at hrs; dsimp only at hrs; rw [h2] at hrs; cases hrs
    | ok rs' =>
      dsimp only
      constructor
      · intro h; cases h
        exact ⟨_, r, rs', Prod.ext rfl hr, Prod.ext rfl hrs, rfl⟩
      · rintro ⟨s1, r', rs2, h, h2, rfl⟩
        rw [h] at hr; cases hr
        rw [h] at hrs ⊢; dsimp only at hrs ⊢; rw [h2] at hrs ⊢; cases hrs; rfl

theorem runAll_append {σ α : Type} (a b : List (σ → σ × Except Err α)) (s s' : σ) (rs : List α) :
    runAll (a ++ b) s = (s', .ok rs) ↔
      ∃ s1 ra rb, runAll a s = (s1, .ok ra) ∧ runAll b s1 = (s', .ok rb) ∧ rs = ra ++ rb := by
  induction a generalizing s rs with
  | nil =>
    constructor
    · intro h; exact ⟨s, [], rs, rfl, h, rfl⟩
    · rintro ⟨s1, ra, rb, h1, h2, rfl⟩; cases h1; exact h2
  | cons f a ih =>
    rw [List.cons_append, runAll_cons]
    constructor
    · rintro ⟨s1, r, rs', h1, h2, rfl⟩
      obtain ⟨s2, ra, rb, h3, h4, rfl⟩ := (ih _ _).1 h2
      exact ⟨s2, r :: ra, rb, (runAll_cons _ _ _ _ _).2 ⟨s1, r, ra, h1, h3, rfl⟩, h4, rfl⟩
    · rintro ⟨s2, ra, rb, h3, h4, rfl⟩
      obtain ⟨s1, r, rs', h1, h2, rfl⟩ := (runAll_cons _ _ _ _ _).1 h3
      exact ⟨s1, r, rs' ++ rb, h1, (ih _ _).2 ⟨s2, rs', rb, h2, h4, rfl⟩, rfl⟩

theorem runAll_one {σ α : Type} (f : σ → σ × Except Err α) (s s' : σ) (rs : List α) :
    runAll [f] s = (s', .ok rs) ↔ ∃ r, f s = (s', .ok r) ∧ rs = [r] := by
  rw [runAll_cons]
  constructor
  · rintro ⟨s1, r, rs', h1, h2, rfl⟩; cases h2; exact ⟨r, h1, rfl⟩
  · rintro ⟨r, h, rfl⟩; exact ⟨s', r, [], h, rfl, rfl⟩

theorem mem_runAll {σ α : Type} {fs : List (σ → σ × Except Err α)} {s s' : σ} {rs : List α}
    (h : runAll fs s = (s', .ok rs)) {r : α} (hr : r ∈ rs) : ∃ f ∈ fs, ∃ s0, (f s0).2 = .ok r := by
  induction fs generalizing s rs with
  | nil => cases h; cases hr
  | cons f fs ih =>
    rw [← List.singleton_append, runAll_append] at h
    obtain ⟨s1, ra, rb, h1, h2, rfl⟩ := h
    obtain ⟨r0, h3, rfl⟩ := (runAll_one _ _ _ _).1 h1
    rcases List.mem_cons.1 hr with rfl | hr
    · exact ⟨f, by simp, s, by rw [h3]⟩
    · obtain ⟨g, hg, h⟩ := ih h2 hr
      exact ⟨g, List.mem_cons_of_mem _ hg, h⟩

theorem addInto_keys_nodup {R : Registry} {ts t t' : Dict DataArray} (h : addInto R ts t = .ok t')
    (ht : t.keys.Nodup) : t'.keys.Nodup := by
  induction ts generalizing t with
  | nil => cases h; exact ht
  | cons kv ts ih =>
    obtain ⟨k, v⟩ := kv
    rw [addInto_cons] at h
    obtain ⟨w, _, h⟩ := Exc.bind_ok_iff.1 h
    exact ih h (Dict.nodup_keys_set ht _ _)

theorem sumAll_nodup {R : Registry} {ts : List (Dict DataArray)} {t t' : Dict DataArray}
    (h : sumAll R ts t = .ok t') (ht : t.keys.Nodup) : t'.keys.Nodup := by
  induction ts generalizing t with
  | nil => cases h; exact ht
  | cons d ts ih =>
    obtain ⟨m, hm, h⟩ := Exc.bind_ok_iff.1 h
    exact ih h (addInto_keys_nodup hm ht)

/-! ## What stands for a group of quantities in a sum -/

/-- `q` stands for the quantities `G`: it has the attributes of the first, the dims of
all, and their lengths. -/
structure SumsUp (G : List DataArray) (q : DataArray) : Prop where
  head : ∃ c0 rest, G = c0 :: rest ∧ q.attrs = c0.attrs
  dims : ∀ x, x ∈ q.dims ↔ ∃ c ∈ G, x ∈ c.dims
  lens : ∀ c ∈ G, ∀ x ∈ c.dims, q.len x = c.len x

theorem HasDim.congr {R : Registry} {dim : List Int} {a b : DataArray} (h : a.attrs = b.attrs) :
    HasDim R dim a ↔ HasDim R dim b := by unfold HasDim; rw [h]

theorem HasDim.unique {R : Registry} {d1 d2 : List Int} {a : DataArray} (h1 : HasDim R d1 a) (h2 : HasDim R d2 a) :
    d1 = d2 := by
  obtain ⟨o1, u1, a1, b1, rfl⟩ := h1
  obtain ⟨o2, u2, a2, b2, rfl⟩ := h2
  rw [a1] at a2; cases a2
  rw [b1] at b2; cases b2
  rfl

theorem SameLengths.symm {a b : DataArray} (h : SameLengths a b) : SameLengths b a :=
  fun d h1 h2 => (h d h2 h1).symm

theorem SumsUp.sameLengths {G : List DataArray} {q : DataArray} (h : SumsUp G q) (x : DataArray) :
    SameLengths x q ↔ ∀ c ∈ G, SameLengths x c := by
  constructor
  · intro hx c hc d h1 h2
    rw [hx d h1 ((h.dims d).2 ⟨c, hc, h2⟩), h.lens c hc d h2]
  · intro hx d h1 h2
    obtain ⟨c, hc, h3⟩ := (h.dims d).1 h2
    rw [hx c hc d h1 h3, h.lens c hc d h3]

/-- A sum can be made in which a summable group is replaced by what stands for it exactly
if the whole sum can be made. -/
theorem SumsUp.addable {R : Registry} {A G B : List DataArray} {q : DataArray} (h : SumsUp G q)
    (hG : Addable R G) : Addable R (A ++ q :: B) ↔ Addable R (A ++ G ++ B) := by
  obtain ⟨c0, rest, hc0, hat⟩ := h.head
  by_cases hAB : A = [] ∧ B = []
  · obtain ⟨rfl, rfl⟩ := hAB
    simp only [List.nil_append, List.append_nil]
    exact ⟨fun _ => hG, fun _ => Or.inl (by simp)⟩
  · have hlen : ¬ (A ++ q :: B).length ≤ 1 := by
      intro hl
      apply hAB
      simp only [List.length_append, List.length_cons] at hl
      exact ⟨List.length_eq_zero_iff.1 (by omega), List.length_eq_zero_iff.1 (by omega)⟩
    have hlen' : ¬ (A ++ G ++ B).length ≤ 1 := by
      intro hl
      apply hAB
      rw [hc0] at hl
      simp only [List.length_append, List.length_cons] at hl
      exact ⟨List.length_eq_zero_iff.1 (by omega), List.length_eq_zero_iff.1 (by omega)⟩
    unfold Addable
    rw [or_iff_right hlen, or_iff_right hlen']
    have hGp : G.Pairwise SameLengths ∧ ∀ dim, HasDim R dim q → ∀ c ∈ G, HasDim R dim c := by
      rcases hG with hG | ⟨⟨dim', h1⟩, h2⟩
      · rw [hc0] at hG ⊢
        have : rest = [] := List.length_eq_zero_iff.1 (by simp only [List.length_cons] at hG; omega)
        subst this
        refine ⟨List.pairwise_singleton _ _, ?_⟩
        intro dim hd c hc
        rw [List.mem_singleton.1 hc]
        exact (HasDim.congr hat).1 hd
      · refine ⟨h2, ?_⟩
        intro dim hd c hc
        have := HasDim.unique ((HasDim.congr hat).1 hd) (h1 c0 (by rw [hc0]; simp))
        rw [this]; exact h1 c hc
    constructor
    · rintro ⟨⟨dim, hd⟩, hp⟩
      have hq := hd q (by simp)
      refine ⟨⟨dim, ?_⟩, ?_⟩
      · intro c hc
        rcases List.mem_append.1 hc with hc | hc
        · rcases List.mem_append.1 hc with hc | hc
          · exact hd c (by simp [hc])
          · exact hGp.2 dim hq c hc
        · exact hd c (by simp [hc])
      · rw [List.pairwise_append, List.pairwise_cons] at hp
        obtain ⟨p1, ⟨p2, p3⟩, p4⟩ := hp
        rw [List.append_assoc, List.pairwise_append, List.pairwise_append]
        refine ⟨p1, ⟨hGp.1, p3, ?_⟩, ?_⟩
        · intro c hc b hb
          exact ((h.sameLengths b).1 (p2 b hb).symm c hc).symm
        · intro a ha x hx
          rcases List.mem_append.1 hx with hx | hx
          · exact (h.sameLengths a).1 (p4 a ha q (by simp)) x hx
          · exact p4 a ha x (List.mem_cons_of_mem _ hx)
    · rintro ⟨⟨dim, hd⟩, hp⟩
      have hc0m : c0 ∈ G := by rw [hc0]; simp
      refine ⟨⟨dim, ?_⟩, ?_⟩
      · intro c hc
        rcases List.mem_append.1 hc with hc | hc
        · exact hd c (by simp [hc])
        · rcases List.mem_cons.1 hc with rfl | hc
          · exact (HasDim.congr hat).2 (hd c0 (by simp [hc0m]))
          · exact hd c (by simp [hc])
      · rw [List.append_assoc, List.pairwise_append, List.pairwise_append] at hp
        obtain ⟨p1, ⟨p2, p3, p4⟩, p5⟩ := hp
        rw [List.pairwise_append, List.pairwise_cons]
        refine ⟨p1, ⟨?_, p3⟩, ?_⟩
        · intro b hb
          exact ((h.sameLengths b).2 (fun c hc => (p4 c hc b hb).symm)).symm
        · intro a ha x hx
          rcases List.mem_cons.1 hx with rfl | hx
          · exact (h.sameLengths a).2 (fun c hc => p5 a ha c (by simp [hc]))
          · exact p5 a ha x (by simp [hx])

theorem contribs_append (n : String) (a b : List (Dict DataArray)) :
    contribs n (a ++ b) = contribs n a ++ contribs n b := by unfold contribs; exact List.filterMap_append

theorem Addable.sublist {R : Registry} {a b : List DataArray} (h : Addable R b) (hs : a.Sublist b) : Addable R a := by
  rcases h with h | ⟨⟨dim, h1⟩, h2⟩
  · exact Or.inl (Nat.le_trans hs.length_le h)
  · exact Or.inr ⟨⟨dim, fun c hc => h1 c (hs.subset hc)⟩, h2.sublist hs⟩

/-! ## Diagnostic composites -/

theorem ensureNoSharedKeys_ok {α β : Type} {d : Dict α} {e : Dict β} :
    ensureNoSharedKeys d e = .ok () ↔ ∀ n ∈ d.keys, n ∉ e.keys := by
  unfold ensureNoSharedKeys
  constructor
  · intro h n hn hm
    rw [if_pos (List.any_eq_true.2 ⟨n, hn, by simpa using hm⟩)] at h
    cases h
  · intro h
    rw [if_neg]
    intro hc
    obtain ⟨n, h1, h2⟩ := List.any_eq_true.1 hc
    exact h n h1 (by simpa using h2)

theorem diagnosticLoop_cons {σ : Type} (f : σ → σ × Except Err (Dict DataArray))
    (fs : List (σ → σ × Except Err (Dict DataArray))) (s s' : σ) (d out : Dict DataArray) :
    diagnosticLoop (f :: fs) s d = (s', .ok out) ↔
      ∃ s1 r, f s = (s1, .ok r) ∧ (∀ n ∈ d.keys, n ∉ Dict.keys r) ∧
        diagnosticLoop fs s1 (d.update r) = (s', .ok out) := by
  rw [diagnosticLoop]
  cases hr : (f s).2 with
  | error e =>
    dsimp only
    constructor
    · intro h; cases h
    · rintro ⟨s1, r, h, _⟩; rw [h] at hr; cases hr
  | ok r =>
    dsimp only
    cases he : ensureNoSharedKeys d r with
    | error e =>
      dsimp only
      constructor
      · intro h; cases h
      · rintro ⟨s1, r', h, h2, _⟩
        rw [h] at hr; cases hr
        rw [ensureNoSharedKeys_ok.2 h2] at he; cases he
    | ok u =>
      dsimp only
      constructor
      · intro h
        exact ⟨_, r, Prod.ext rfl hr, ensureNoSharedKeys_ok.1 he, h⟩
      · rintro ⟨s1, r', h, h2, h3⟩
        rw [h] at hr; cases hr
        rw [h]; exact h3

theorem diagnosticLoop_append {σ : Type} (fs gs : List (σ → σ × Except Err (Dict DataArray))) (s s' : σ)
    (d out : Dict DataArray) :
    diagnosticLoop (fs ++ gs) s d = (s', .ok out) ↔
      ∃ s1 m, diagnosticLoop fs s d = (s1, .ok m) ∧ diagnosticLoop gs s1 m = (s', .ok out) := by
  induction fs generalizing s d with
  | nil =>
    constructor
    · intro h; exact ⟨s, d, rfl, h⟩
    · rintro ⟨s1, m, h1, h2⟩; cases h1; exact h2
  | cons f fs ih =>
    rw [List.cons_append, diagnosticLoop_cons]
    constructor
    · rintro ⟨s1, r, h1, h2, h3⟩
      obtain ⟨s2, m, h4, h5⟩ := (ih _ _).1 h3
      exact ⟨s2, m, (diagnosticLoop_cons _ _ _ _ _ _).2 ⟨s1, r, h1, h2, h4⟩, h5⟩
    · rintro ⟨s2, m, h4, h5⟩
      obtain ⟨s1, r, h1, h2, h3⟩ := (diagnosticLoop_cons _ _ _ _ _ _).1 h4
      exact ⟨s1, r, h1, h2, (ih _ _).2 ⟨s2, m, h3, h5⟩⟩

theorem diagnosticLoop_from {σ : Type} (gs : List (σ → σ × Except Err (Dict DataArray))) (s s' : σ)
    (d e out : Dict DataArray) (he : e.keys.Nodup) (hde : ∀ n ∈ d.keys, n ∉ e.keys) :
    diagnosticLoop gs s (d.update e) = (s', .ok out) ↔
      ∃ m, diagnosticLoop gs s e = (s', .ok m) ∧ (∀ n ∈ d.keys, n ∉ Dict.keys m) ∧ out = d.update m := by
  induction gs generalizing s e with
  | nil =>
    constructor
    · intro h; cases h; exact ⟨e, rfl, hde, rfl⟩
    · rintro ⟨m, h, _, rfl⟩; cases h; rfl
  | cons f gs ih =>
    rw [diagnosticLoop_cons]
    constructor
    · rintro ⟨s1, r, h1, h2, h3⟩
      rw [← Dict.update_update _ he] at h3
      have hde' : ∀ n ∈ d.keys, n ∉ (e.update r).keys := by
        intro n hn hm
        rcases (Dict.mem_keys_update _ _ _).1 hm with hm | hm
        · exact hde n hn hm
        · exact h2 n ((Dict.mem_keys_update _ _ _).2 (Or.inl hn)) hm
      obtain ⟨m, m1, m2, m3⟩ := (ih _ _ (Dict.nodup_keys_update he _) hde').1 h3
      exact ⟨m, (diagnosticLoop_cons _ _ _ _ _ _).2 ⟨s1, r, h1, fun n hn =>
        h2 n ((Dict.mem_keys_update _ _ _).2 (Or.inr hn)), m1⟩, m2, m3⟩
    · rintro ⟨m, m1, m2, rfl⟩
      obtain ⟨s1, r, h1, h2, h3⟩ := (diagnosticLoop_cons _ _ _ _ _ _).1 m1
      have hsub : ∀ (l : List (σ → σ × Except Err (Dict DataArray))) (s0 : σ) (a : Dict DataArray),
          diagnosticLoop l s0 a = (s', .ok m) → ∀ n ∈ a.keys, n ∈ m.keys := by
        intro l
        induction l with
        | nil => intro s0 a h n hn; cases h; exact hn
        | cons g l ihl =>
          intro s0 a h n hn
          obtain ⟨s2, r2, _, _, h4⟩ := (diagnosticLoop_cons _ _ _ _ _ _).1 h
          exact ihl _ _ h4 n ((Dict.mem_keys_update _ _ _).2 (Or.inl hn))
      have hde' : ∀ n ∈ d.keys, n ∉ (e.update r).keys := fun n hn hm => m2 n hn (hsub _ _ _ h3 n hm)
      refine ⟨s1, r, h1, ?_, ?_⟩
      · intro n hn hm
        rcases (Dict.mem_keys_update _ _ _).1 hn with hn | hn
        · exact hde' n hn ((Dict.mem_keys_update _ _ _).2 (Or.inr hm))
        · exact h2 n hn hm
      · rw [← Dict.update_update _ he]
        exact (ih _ _ (Dict.nodup_keys_update he _) hde').2 ⟨m, h3, m2, rfl⟩

end Verif
