import Verif.Lemmas.NetCDF
/-!
# Lemmas on the aliases of NetCDFMonitor
-/

namespace Verif

/-! ## Text -/

theorem occursIn_iff {pat s : List Char} : occursIn pat s = true ↔ ∃ p q, s = p ++ pat ++ q := by
  induction s with
  | nil =>
    unfold occursIn
    rw [List.isPrefixOf_iff_prefix]
    constructor
    · rintro ⟨t, ht⟩
      exact ⟨[], t, by simpa using ht.symm⟩
    · rintro ⟨p, q, h⟩
      have h' := h.symm
      simp only [List.append_eq_nil_iff] at h'
      rw [h'.1.2]
      exact List.prefix_rfl
  | cons c cs ih =>
    unfold occursIn
    rw [Bool.or_eq_true, ih, List.isPrefixOf_iff_prefix]
    constructor
    · rintro (⟨t, ht⟩ | ⟨p, q, h⟩)
      · exact ⟨[], t, by simpa using ht.symm⟩
      · exact ⟨c :: p, q, by rw [h]; rfl⟩
    · rintro ⟨p, q, h⟩
      cases p with
      | nil => exact .inl ⟨q, by simpa using h.symm⟩
      | cons x p =>
        injection h with h1 h2
        exact .inr ⟨p, q, h2⟩

theorem replaceChars_skip (pat new l rest : List Char) :
    replaceChars pat new l.length (l ++ rest) = replaceChars pat new 0 rest := by
  induction l with
  | nil => rfl
  | cons c l ih =>
    rw [List.cons_append, List.length_cons]
    cases rest <;> exact ih

theorem replaceChars_none {pat new s : List Char} (h : ¬ ∃ p q, s = p ++ pat ++ q) : replaceChars pat new 0 s = s := by
  induction s with
  | nil => rfl
  | cons c cs ih =>
    unfold replaceChars
    rw [if_neg, ih]
    · rintro ⟨p, q, hp⟩
      exact h ⟨c :: p, q, by rw [hp]; rfl⟩
    · rw [List.isPrefixOf_iff_prefix]
      rintro ⟨t, ht⟩
      exact h ⟨[], t, by simpa using ht.symm⟩

theorem replaceChars_first {pat new pre rest : List Char} (hpat : pat ≠ [])
    (h : ∀ p q, pre ++ pat ++ rest = p ++ pat ++ q → pre.length ≤ p.length) :
    replaceChars pat new 0 (pre ++ pat ++ rest) = pre ++ new ++ replaceChars pat new 0 rest := by
  induction pre with
  | nil =>
    cases pat with
    | nil => exact absurd rfl hpat
    | cons x pat =>
      rw [List.nil_append, List.nil_append, List.cons_append]
      have hp : (x :: pat).isPrefixOf (x :: (pat ++ rest)) = true := by
        rw [List.isPrefixOf_iff_prefix]
        exact ⟨rest, rfl⟩
      rw [replaceChars, if_pos hp, List.length_cons, Nat.add_sub_cancel, replaceChars_skip]
  | cons c pre ih =>
    rw [List.cons_append, List.cons_append]
    have hp : ¬ pat.isPrefixOf (c :: (pre ++ pat ++ rest)) = true := by
      rw [List.isPrefixOf_iff_prefix]
      rintro ⟨t, ht⟩
      have := h [] t (by rw [List.nil_append]; exact ht.symm)
      simp at this
    rw [replaceChars, if_neg hp, ih]
    · rfl
    · intro p q hpq
      have := h (c :: p) q (by rw [List.cons_append, List.cons_append, hpq]; rfl)
      simpa using this

/-- The first occurrence. -/
theorem exists_first {pat s : List Char} (h : ∃ p q, s = p ++ pat ++ q) :
    ∃ pre rest, s = pre ++ pat ++ rest ∧ ∀ p q, s = p ++ pat ++ q → pre.length ≤ p.length := by
  classical
  have hex : ∃ n, ∃ p q, s = p ++ pat ++ q ∧ p.length = n := by
    obtain ⟨p, q, h⟩ := h
    exact ⟨_, p, q, h, rfl⟩
  obtain ⟨pre, rest, h1, h2⟩ := Nat.find_spec hex
  refine ⟨pre, rest, h1, fun p q hpq => ?_⟩
  rw [h2]
  exact Nat.find_min' hex ⟨p, q, hpq, rfl⟩

theorem replaceChars_replaced {pat new : List Char} (hpat : pat ≠ []) (s : List Char) :
    Replaced pat new s (replaceChars pat new 0 s) := by
  generalize hn : s.length = n
  induction n using Nat.strongRecOn generalizing s with
  | _ n ih =>
    by_cases h : ∃ p q, s = p ++ pat ++ q
    · obtain ⟨pre, rest, rfl, hmin⟩ := exists_first h
      rw [replaceChars_first hpat hmin]
      refine Replaced.first hmin (ih rest.length ?_ rest rfl)
      rw [← hn]
      have : 0 < pat.length := List.length_pos_iff.2 hpat
      simp only [List.length_append]
      omega
    · rw [replaceChars_none h]
      exact Replaced.none h

/-- The result of the replacement is determined. -/
theorem replaced_eq {pat new s t : List Char} (hpat : pat ≠ []) (h : Replaced pat new s t) :
    t = replaceChars pat new 0 s := by
  induction h with
  | none h => exact (replaceChars_none h).symm
  | first hmin _ ih => rw [replaceChars_first hpat hmin, ← ih]

theorem ncRename_replaced {long short : String} (h : long ≠ "") (name : String) :
    Replaced long.toList short.toList name.toList (ncRename long short name).toList := by
  have hl : long.toList ≠ [] := fun e => h (String.toList_inj.1 (by rw [e]; rfl))
  unfold ncRename
  split
  · unfold pyReplace
    rw [if_neg hl, String.toList_ofList]
    exact replaceChars_replaced hl _
  · rename_i hin
    refine Replaced.none ?_
    rw [← occursIn_iff]
    exact hin

/-! ## One alias -/

theorem ncAliasPass_spec {long short : String} {l : List String} {cs : State} (hn : (Dict.keys cs).Nodup)
    (hl : l.Nodup) (hsub : ∀ a ∈ l, a ∈ Dict.keys cs)
    (h1 : ∀ a ∈ l, ∀ b ∈ l, a ≠ b → ncRename long short a ≠ ncRename long short b)
    (h2 : ∀ a ∈ l, ∀ b ∈ Dict.keys cs, a ≠ b → ncRename long short a ≠ b)
    (h3 : ∀ a ∈ l, ncRename long short a ≠ "") (hne : ∀ a ∈ l, a ≠ "") :
    ∃ cs', ncAliasPass long short l cs = .ok cs' ∧ (Dict.keys cs').Nodup ∧
      (∀ a ∈ l, Dict.get? cs' (ncRename long short a) = Dict.get? cs a) ∧
      (∀ b ∈ Dict.keys cs, b ∉ l → Dict.get? cs' b = Dict.get? cs b) ∧
      ∀ n ∈ Dict.keys cs', (∃ a ∈ l, ncRename long short a = n) ∨ n ∈ Dict.keys cs ∧ n ∉ l := by
  induction l generalizing cs with
  | nil =>
    exact ⟨cs, rfl, hn, fun a ha => (by cases ha), fun _ _ _ => rfl, fun n hn => .inr ⟨hn, by simp⟩⟩
  | cons a l ih =>
    rw [List.nodup_cons] at hl
    have haK := hsub a List.mem_cons_self
    have hneq : ∀ a' ∈ l, a' ≠ a := fun a' ha' e => hl.1 (e ▸ ha')
    unfold ncAliasPass
    by_cases hin : pyIn long a = true
    · have hr : ncRename long short a = pyReplace a long short := by
        unfold ncRename
        rw [if_pos hin]
      rw [if_pos hin, ← hr, if_neg (h3 a List.mem_cons_self)]
      obtain ⟨v, hv⟩ := Dict.get?_of_mem_keys haK
      rw [hv]
      dsimp only
      have hkeys : ∀ b, b ∈ Dict.keys (Dict.set (Dict.erase cs a) (ncRename long short a) v) ↔
          b = ncRename long short a ∨ (b ∈ Dict.keys cs ∧ b ≠ a) := by
        intro b
        rw [Dict.mem_keys_set, Dict.keys_erase, hn.mem_erase_iff]
        tauto
      have hra : ncRename long short a ∉ l := by
        intro hm
        exact h2 a List.mem_cons_self _ (hsub _ (List.mem_cons_of_mem _ hm)) (Ne.symm (hneq _ hm)) rfl
      have hn1 : (Dict.keys (Dict.erase cs a)).Nodup := by
        rw [Dict.keys_erase]
        exact hn.erase _
      obtain ⟨cs', i1, i2, i3, i4, i5⟩ := ih (cs := Dict.set (Dict.erase cs a) (ncRename long short a) v)
        (Dict.nodup_keys_set hn1 _ _) hl.2
        (fun a' ha' => (hkeys a').2 (.inr ⟨hsub _ (List.mem_cons_of_mem _ ha'), hneq a' ha'⟩))
        (fun a' ha' b hb => h1 _ (List.mem_cons_of_mem _ ha') _ (List.mem_cons_of_mem _ hb))
        (fun a' ha' b hb hab => by
          rcases (hkeys b).1 hb with rfl | ⟨hb, -⟩
          · exact h1 _ (List.mem_cons_of_mem _ ha') _ List.mem_cons_self (hneq a' ha')
          · exact h2 _ (List.mem_cons_of_mem _ ha') b hb hab)
        (fun a' ha' => h3 _ (List.mem_cons_of_mem _ ha')) (fun a' ha' => hne _ (List.mem_cons_of_mem _ ha'))
      refine ⟨cs', i1, i2, ?_, ?_, ?_⟩
      · intro a' ha'
        rcases List.mem_cons.1 ha' with rfl | ha'
        · rw [i4 _ ((hkeys _).2 (.inl rfl)) hra, Dict.get?_set_self, hv]
        · rw [i3 a' ha', Dict.get?_set_ne, Dict.get?_erase_ne _ (Ne.symm (hneq a' ha'))]
          rintro rfl
          exact hra ha'
      · intro b hb hbl
        rw [List.mem_cons, not_or] at hbl
        rw [i4 b ((hkeys b).2 (.inr ⟨hb, hbl.1⟩)) hbl.2, Dict.get?_set_ne, Dict.get?_erase_ne _ (Ne.symm hbl.1)]
        exact h2 a List.mem_cons_self b hb (Ne.symm hbl.1)
      · intro n hnk
        rcases i5 n hnk with ⟨a', ha', e⟩ | ⟨hk, hnl⟩
        · exact .inl ⟨a', List.mem_cons_of_mem _ ha', e⟩
        · rcases (hkeys n).1 hk with e | ⟨hk, hna⟩
          · exact .inl ⟨a, List.mem_cons_self, e.symm⟩
          · refine .inr ⟨hk, ?_⟩
            rw [List.mem_cons, not_or]
            exact ⟨hna, hnl⟩
    · have hr : ncRename long short a = a := by
        unfold ncRename
        rw [if_neg hin]
      rw [if_neg hin]
      obtain ⟨cs', i1, i2, i3, i4, i5⟩ := ih hn hl.2 (fun a' ha' => hsub _ (List.mem_cons_of_mem _ ha'))
        (fun a' ha' b hb => h1 _ (List.mem_cons_of_mem _ ha') _ (List.mem_cons_of_mem _ hb))
        (fun a' ha' => h2 _ (List.mem_cons_of_mem _ ha')) (fun a' ha' => h3 _ (List.mem_cons_of_mem _ ha'))
        (fun a' ha' => hne _ (List.mem_cons_of_mem _ ha'))
      refine ⟨cs', i1, i2, ?_, ?_, ?_⟩
      · intro a' ha'
        rcases List.mem_cons.1 ha' with rfl | ha'
        · rw [hr]
          exact i4 _ haK hl.1
        · exact i3 a' ha'
      · intro b hb hbl
        rw [List.mem_cons, not_or] at hbl
        exact i4 b hb hbl.2
      · intro n hnk
        rcases i5 n hnk with ⟨a', ha', e⟩ | ⟨hk, hnl⟩
        · exact .inl ⟨a', List.mem_cons_of_mem _ ha', e⟩
        · by_cases e : n = a
          · exact .inl ⟨a, List.mem_cons_self, hr.trans e.symm⟩
          · refine .inr ⟨hk, ?_⟩
            rw [List.mem_cons, not_or]
            exact ⟨e, hnl⟩

/-- An empty alias raises ValueError, whatever else happens. -/
theorem ncAliasPass_empty {long short : String} {l : List String} {cs : State} (hn : (Dict.keys cs).Nodup)
    (hl : l.Nodup) (hsub : ∀ a ∈ l, a ∈ Dict.keys cs) {a : String} (ha : a ∈ l) (hne : a ≠ "")
    (he : ncRename long short a = "") : ncAliasPass long short l cs = .error .valueError := by
  induction l generalizing cs with
  | nil => cases ha
  | cons b l ih =>
    rw [List.nodup_cons] at hl
    unfold ncAliasPass
    by_cases hin : pyIn long b = true
    · rw [if_pos hin]
      by_cases hb : pyReplace b long short = ""
      · rw [if_pos hb]
      · rw [if_neg hb]
        obtain ⟨v, hv⟩ := Dict.get?_of_mem_keys (hsub b List.mem_cons_self)
        rw [hv]
        dsimp only
        have hal : a ∈ l := by
          rcases List.mem_cons.1 ha with rfl | ha
          · exfalso
            unfold ncRename at he
            rw [if_pos hin] at he
            exact hb he
          · exact ha
        have hn1 : (Dict.keys (Dict.erase cs b)).Nodup := by
          rw [Dict.keys_erase]
          exact hn.erase _
        refine ih (Dict.nodup_keys_set hn1 _ _) hl.2 ?_ hal
        intro c hc
        rw [Dict.mem_keys_set, Dict.keys_erase, hn.mem_erase_iff]
        have : c ≠ b := fun e => hl.1 (e ▸ hc)
        have := hsub c (List.mem_cons_of_mem _ hc)
        tauto
    · rw [if_neg hin]
      refine ih hn hl.2 (fun c hc => hsub c (List.mem_cons_of_mem _ hc)) ?_
      rcases List.mem_cons.1 ha with rfl | ha
      · exfalso
        unfold ncRename at he
        rw [if_neg hin] at he
        exact hne he
      · exact ha

/-! ## All aliases -/

theorem finalName_cons (long short : String) (rest : Dict String) (n : String) :
    finalName ((long, short) :: rest) n = finalName rest (ncRename long short n) := rfl

theorem ncAliases_spec {al : Dict String} {cs : State} (hn : (Dict.keys cs).Nodup) (he : "" ∉ Dict.keys cs)
    {names : String → Prop} (hnames : ∀ n, names n ↔ n ∈ Dict.keys cs) (h : NoClash al names) :
    ∃ cs', ncAliases al cs = .ok cs' ∧ (Dict.keys cs').Nodup ∧ "" ∉ Dict.keys cs' ∧
      (∀ a ∈ Dict.keys cs, Dict.get? cs' (finalName al a) = Dict.get? cs a) ∧
      (∀ n ∈ Dict.keys cs', ∃ a ∈ Dict.keys cs, finalName al a = n) ∧
      ∀ a ∈ Dict.keys cs, ∀ b ∈ Dict.keys cs, finalName al a = finalName al b → a = b := by
  induction al generalizing cs names with
  | nil => exact ⟨cs, rfl, hn, he, fun _ _ => rfl, fun n hn => ⟨n, hn, rfl⟩, fun _ _ _ _ e => e⟩
  | cons x al ih =>
    obtain ⟨long, short⟩ := x
    obtain ⟨c1, c2, c3⟩ := h
    have hK : ∀ a, a ∈ Dict.keys cs → names a := fun a => (hnames a).2
    obtain ⟨cs1, p1, p2, p3, -, p5⟩ := ncAliasPass_spec (long := long) (short := short) hn hn (fun _ h => h)
      (fun a ha b hb hab => (c1 a b (hK a ha) (hK b hb) hab).1)
      (fun a ha b hb hab => (c1 a b (hK a ha) (hK b hb) hab).2) (fun a ha => c2 a (hK a ha))
      (fun a ha e => he (e ▸ ha))
    have hkeys : ∀ n, (∃ a, names a ∧ ncRename long short a = n) ↔ n ∈ Dict.keys cs1 := by
      intro n
      constructor
      · rintro ⟨a, ha, rfl⟩
        obtain ⟨v, hv⟩ := Dict.get?_of_mem_keys ((hnames a).1 ha)
        exact Dict.mem_keys_of_get? ((p3 a ((hnames a).1 ha)).trans hv)
      · intro hn'
        rcases p5 n hn' with ⟨a, ha, e⟩ | ⟨h1, h2⟩
        · exact ⟨a, hK a ha, e⟩
        · exact absurd h1 h2
    have he1 : "" ∉ Dict.keys cs1 := by
      intro hm
      obtain ⟨a, ha, e⟩ := (hkeys _).2 hm
      exact c2 a ha e
    obtain ⟨cs', q1, q2, q3, q4, q5, q6⟩ := ih p2 he1 hkeys c3
    refine ⟨cs', ?_, q2, q3, ?_, ?_, ?_⟩
    · unfold ncAliases
      rw [p1]
      exact q1
    · intro a ha
      rw [finalName_cons, q4 _ ((hkeys _).1 ⟨a, hK a ha, rfl⟩)]
      exact p3 a ha
    · intro n hn'
      obtain ⟨b, hb, e⟩ := q5 n hn'
      obtain ⟨a, ha, rfl⟩ := (hkeys b).2 hb
      exact ⟨a, (hnames a).1 ha, e⟩
    · intro a ha b hb e
      rw [finalName_cons, finalName_cons] at e
      have := q6 _ ((hkeys _).1 ⟨a, hK a ha, rfl⟩) _ ((hkeys _).1 ⟨b, hK b hb, rfl⟩) e
      by_contra hab
      exact (c1 a b (hK a ha) (hK b hb) hab).1 this

theorem ncAliases_empty {pre post : Dict String} {long short : String} {cs : State} (hn : (Dict.keys cs).Nodup)
    (he : "" ∉ Dict.keys cs) {names : String → Prop} (hnames : ∀ n, names n ↔ n ∈ Dict.keys cs) (h : NoClash pre names)
    {a : String} (ha : names a) (hempty : ncRename long short (finalName pre a) = "") :
    ncAliases (pre ++ (long, short) :: post) cs = .error .valueError := by
  have happ : ∀ (pre l : Dict String) (cs : State), ncAliases (pre ++ l) cs = ncAliases pre cs >>= ncAliases l := by
    intro pre l
    induction pre with
    | nil => intro cs; rfl
    | cons x pre ih =>
      intro cs
      rw [List.cons_append]
      unfold ncAliases
      cases ncAliasPass x.1 x.2 (Dict.keys cs) cs with
      | error e => rfl
      | ok c => exact ih c
  rw [happ]
  obtain ⟨c1, h1, h2, h3, h4, -⟩ := ncAliases_spec hn he hnames h
  rw [h1, Exc.ok_bind]
  unfold ncAliases
  have hm : finalName pre a ∈ Dict.keys c1 := by
    obtain ⟨v, hv⟩ := Dict.get?_of_mem_keys ((hnames a).1 ha)
    exact Dict.mem_keys_of_get? ((h4 a ((hnames a).1 ha)).trans hv)
  rw [ncAliasPass_empty h2 h2 (fun _ h => h) hm (fun e => h3 (e ▸ hm)) hempty]
  rfl

theorem mem_select {order : SetOrder} {names : Option (List String)} {s : State} (h : (Dict.keys s).Nodup) (n : String) :
    Selected names s n ↔ n ∈ Dict.keys (ncSelect order names s) := by
  obtain ⟨-, sv⟩ := ncSelect_spec order names h
  rw [← Dict.get?_isSome_iff, sv n]
  unfold Selected
  rw [← Dict.get?_isSome_iff]
  split
  · rename_i hc
    exact ⟨fun h => h.1, fun h => ⟨h, hc⟩⟩
  · rename_i hc
    exact ⟨fun h => absurd h.2 hc, fun h => by cases h⟩

end Verif
