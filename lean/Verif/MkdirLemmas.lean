import Verif.MkdirSpec

/-!
# Lemmas about the making of directories and the search
-/

namespace Diminuto.Mkdir

theorem strtok_delimiter (x : Byte) (s : Name) : strtok x (x :: s) = (strtok x s).map fun r => (r.1 + 1, r.2) := by
  unfold strtok
  have : (x :: s).dropWhile (· = x) = s.dropWhile (· = x) := by simp
  rw [this]
  simp only []
  have hl : (s.dropWhile (· = x)).length ≤ s.length := (List.dropWhile_sublist _).length_le
  split
  · rfl
  · simp only [Option.map_some, List.length_cons]
    congr 2
    omega

theorem strtok_component {x : Byte} {c : Name} (hc : c ≠ []) (hx : x ∉ c) (t : Name) (ht : t = [] ∨ ∃ s, t = x :: s) : strtok x (c ++ t) = some (0, c, t.drop 1) := by
  obtain ⟨b, c', rfl⟩ := List.exists_cons_of_ne_nil hc
  have hb : b ≠ x := fun h => hx (h ▸ List.mem_cons_self)
  have h1 : (b :: c' ++ t).dropWhile (· = x) = b :: c' ++ t := by
    rw [List.cons_append, List.dropWhile_cons, if_neg (by simpa using hb)]
  have hall : ∀ a ∈ b :: c', decide (a ≠ x) = true := by
    intro a ha
    apply decide_eq_true
    rintro rfl
    exact hx ha
  have h2 : (b :: c' ++ t).takeWhile (· ≠ x) = b :: c' := by
    rw [List.takeWhile_append_of_pos hall]
    rcases ht with rfl | ⟨s, rfl⟩ <;> simp
  have h3 : (b :: c' ++ t).dropWhile (· ≠ x) = t := by
    rw [List.dropWhile_append_of_pos hall]
    rcases ht with rfl | ⟨s, rfl⟩ <;> simp
  unfold strtok
  simp only [h1, h2, h3]
  rw [if_neg (by simp)]
  simp

/-- `strtok_r(3)` takes the components one by one. -/
theorem strtok_split {x : Byte} {s : Name} {cs : List Name} (h : Split x s cs) :
    (cs = [] → strtok x s = none) ∧
    ∀ c cs', cs = c :: cs' → ∃ k rest, strtok x s = some (k, c, rest) ∧ Split x rest cs' ∧ (k = 0 ↔ s.head? ≠ some x) ∧ k + c.length ≤ s.length ∧
      (rest ≠ [] → k + c.length + 1 + rest.length = s.length) ∧ c ≠ [] ∧ x ∉ c := by
  induction h with
  | nil => exact ⟨fun _ => rfl, fun c cs' h => by cases h⟩
  | @delimiter s cs _ ih =>
    refine ⟨fun h => ?_, fun c cs' h => ?_⟩
    · rw [strtok_delimiter, ih.1 h]
      rfl
    · obtain ⟨k, rest, h1, h2, h3, h4, h5, h6⟩ := ih.2 c cs' h
      refine ⟨k + 1, rest, by rw [strtok_delimiter, h1]; rfl, h2, by simp, by simp; omega, fun h => by have := h5 h; simp; omega, h6⟩
  | @last c hc hx =>
    refine ⟨(fun h => by cases h), fun d cs' h => ?_⟩
    cases h
    have := strtok_component hc hx [] (.inl rfl)
    rw [List.append_nil] at this
    refine ⟨0, [], this, .nil, ?_, by omega, fun h => absurd rfl h, hc, hx⟩
    obtain ⟨b, c', rfl⟩ := List.exists_cons_of_ne_nil hc
    simp only [true_iff, List.head?_cons]
    intro h
    exact hx (Option.some.inj h ▸ List.mem_cons_self)
  | @component c s cs hc hx hs _ =>
    refine ⟨(fun h => by cases h), fun d cs' h => ?_⟩
    cases h
    refine ⟨0, s, strtok_component hc hx (x :: s) (.inr ⟨s, rfl⟩), hs, ?_, by simp, fun _ => by simp; omega, hc, hx⟩
    obtain ⟨b, c', rfl⟩ := List.exists_cons_of_ne_nil hc
    simp only [true_iff, List.cons_append, List.head?_cons]
    intro h
    exact hx (Option.some.inj h ▸ List.mem_cons_self)

theorem split_takes {x : Byte} {s : Name} {cs : List Name} (h : Split x s cs) : ∀ c ∈ cs, c ≠ [] ∧ x ∉ c := by
  induction h with
  | nil => intro c hc; cases hc
  | delimiter _ ih => exact ih
  | last hc hx => intro d hd; rw [List.mem_singleton.1 hd]; exact ⟨hc, hx⟩
  | component hc hx _ ih =>
    intro d hd
    rcases List.mem_cons.1 hd with rfl | hd
    · exact ⟨hc, hx⟩
    · exact ih d hd

theorem split_exists (x : Byte) (s : Name) : ∃ cs, Split x s cs := by
  suffices h : (∃ cs, Split x s cs) ∧ ∀ c, c ≠ [] → x ∉ c → ∃ cs, Split x (c ++ s) cs from h.1
  induction s with
  | nil => exact ⟨⟨_, .nil⟩, fun c hc hx => ⟨_, by rw [List.append_nil]; exact .last hc hx⟩⟩
  | cons b s ih =>
    obtain ⟨⟨cs, hcs⟩, hc'⟩ := ih
    by_cases hb : b = x
    · subst hb
      exact ⟨⟨cs, .delimiter hcs⟩, fun c hc hx => ⟨_, .component hc hx hcs⟩⟩
    · have h1 : ∀ c, x ∉ c → ∃ cs, Split x (c ++ b :: s) cs := by
        intro c hx
        have := hc' (c ++ [b]) (by simp) (by simp [hx, Ne.symm hb])
        simpa using this
      exact ⟨h1 [] (by simp), fun c _ hx => h1 c hx⟩

theorem split_unique {x : Byte} {s : Name} {cs : List Name} (h : Split x s cs) : ∀ {ds}, Split x s ds → cs = ds := by
  induction hn : cs.length generalizing s cs with
  | zero =>
    intro ds h2
    have := List.eq_nil_of_length_eq_zero hn
    subst this
    have h1 := (strtok_split h).1 rfl
    cases ds with
    | nil => rfl
    | cons d ds =>
      obtain ⟨k, rest, h3, -⟩ := (strtok_split h2).2 d ds rfl
      rw [h1] at h3
      cases h3
  | succ n ih =>
    intro ds h2
    cases cs with
    | nil => cases hn
    | cons c cs =>
      obtain ⟨k, rest, h3, h4, -⟩ := (strtok_split h).2 c cs rfl
      cases ds with
      | nil =>
        have h1 := (strtok_split h2).1 rfl
        rw [h1] at h3
        cases h3
      | cons d ds =>
        obtain ⟨k', rest', h5, h6, -⟩ := (strtok_split h2).2 d ds rfl
        rw [h5] at h3
        cases h3
        rw [ih h4 (by simpa using hn) h6]

theorem join_true (cs : List Name) (h : cs ≠ []) : join true cs = 47#8 :: join false cs := by
  match cs, h with
  | [c], _ => rfl
  | c :: d :: cs, _ => rfl

theorem join_cons (b : Bool) (c : Name) (cs : List Name) (h : cs ≠ []) : join b (c :: cs) = (if b then 47#8 :: c else c) ++ join true cs := by
  match cs, h with
  | d :: cs, _ => rfl

theorem join_snoc (b : Bool) (cs : List Name) (c : Name) (h : cs ≠ []) : join b (cs ++ [c]) = join b cs ++ 47#8 :: c := by
  induction cs generalizing b with
  | nil => exact absurd rfl h
  | cons d cs ih =>
    rw [List.cons_append, join_cons b d _ (by simp)]
    by_cases hcs : cs = []
    · subst hcs
      rfl
    · rw [ih true hcs, join_cons b d cs hcs, List.append_assoc]

theorem join_split (b : Bool) (cs : List Name) (h : ∀ c ∈ cs, c ≠ [] ∧ 47#8 ∉ c) (hn : cs ≠ []) :
    Split 47#8 (join b cs) cs ∧ ((join b cs).head? = some 47#8 ↔ b = true) := by
  induction cs generalizing b with
  | nil => exact absurd rfl hn
  | cons c cs ih =>
    obtain ⟨hc, hx⟩ := h c List.mem_cons_self
    have hd : ∀ t : Name, (c ++ t).head? ≠ some 47#8 := by
      intro t
      obtain ⟨a, c', rfl⟩ := List.exists_cons_of_ne_nil hc
      simp only [List.cons_append, List.head?_cons]
      intro h
      exact hx (Option.some.inj h ▸ List.mem_cons_self)
    by_cases hcs : cs = []
    · subst hcs
      cases b with
      | true => exact ⟨.delimiter (.last hc hx), by simp [join]⟩
      | false => exact ⟨.last hc hx, by have := hd []; simp [join] at this ⊢; exact this⟩
    · have h1 := (ih false (fun d hd => h d (List.mem_cons_of_mem _ hd)) hcs).1
      rw [join_cons b c cs hcs, join_true cs hcs]
      cases b with
      | true => exact ⟨.delimiter (.component hc hx h1), by simp⟩
      | false => exact ⟨.component hc hx h1, by have := hd (47#8 :: join false cs); simpa using this⟩

theorem prefixes_cons {done : List Name} (b : Bool) (c : Name) (cs : List Name) :
    ((List.range (c :: cs).length).map fun k => join b (done ++ (c :: cs).take (k + 1))) =
      join b (done ++ [c]) :: (List.range cs.length).map fun k => join b ((done ++ [c]) ++ cs.take (k + 1)) := by
  rw [List.length_cons, List.range_succ_eq_map, List.map_cons, List.map_map]
  congr 1
  apply List.map_congr_left
  intro k _
  simp

theorem loop_step {σ : Type} (mkdir : Name → σ → Result × σ) (size : Nat) (rest : Name) (pos : Nat) (sink : Name) (s : σ) :
    loop mkdir size rest pos sink s =
      match strtok 47#8 rest with
      | none => some (0, s)
      | some (k, token, rest') =>
        match (if pos + k ≠ 0 then strcat size sink [47#8] else some sink).bind fun sink => strcat size sink token with
        | none => none
        | some sink =>
          match mkdir sink s with
          | (.made, s) => loop mkdir size rest' (pos + k + token.length + 1) sink s
          | (.exists, s) => loop mkdir size rest' (pos + k + token.length + 1) sink s
          | (.failed, s) => some (-1, s) := by
  rw [loop]
  split
  · rename_i h
    rw [h]
  · rename_i k token rest' h
    simp only [h]
    rfl

theorem loop_calls {σ : Type} (mkdir : Name → σ → Result × σ) (size : Nat) (b : Bool) : ∀ (cs done : List Name) (rest : Name) (pos : Nat) (s : σ),
    Split 47#8 rest cs → done ≠ [] → pos ≠ 0 → (join b done).length + 1 ≤ pos → (rest ≠ [] → pos + rest.length + 1 ≤ size) →
    ∃ r u, loop mkdir size rest pos (join b done) s = some (r, u) ∧
      Calls mkdir ((List.range cs.length).map fun k => join b (done ++ cs.take (k + 1))) s r u := by
  intro cs
  induction cs with
  | nil =>
    intro done rest pos s h _ _ _ _
    rw [loop_step, (strtok_split h).1 rfl]
    exact ⟨0, s, rfl, .nil⟩
  | cons c cs ih =>
    intro done rest pos s h hd hp hl hs
    obtain ⟨k, rest', h1, h2, h3, h4, h5, h6, -⟩ := (strtok_split h).2 c cs rfl
    have hc : c.length ≠ 0 := fun h => h6 (List.eq_nil_of_length_eq_zero h)
    have hs := hs (fun h => by rw [h] at h4; simp at h4; exact h6 h4.2)
    rw [loop_step, h1, prefixes_cons]
    simp only []
    have e1 : strcat size (join b done) [47#8] = some (join b done ++ [47#8]) := by
      unfold strcat
      rw [if_pos (by simp; omega)]
    have e2 : strcat size (join b done ++ [47#8]) c = some (join b (done ++ [c])) := by
      unfold strcat
      rw [if_pos (by simp; omega), join_snoc b done c hd, List.append_assoc]
      rfl
    rw [if_pos (by omega), e1]
    simp only [Option.bind_some]
    rw [e2]
    simp only []
    have hlen : (join b (done ++ [c])).length + 1 ≤ pos + k + c.length + 1 := by
      rw [join_snoc b done c hd]
      simp
      omega
    rcases hm : mkdir (join b (done ++ [c])) s with ⟨x, t⟩
    have next : ∃ r u, loop mkdir size rest' (pos + k + c.length + 1) (join b (done ++ [c])) t = some (r, u) ∧
        Calls mkdir ((List.range cs.length).map fun k => join b (done ++ [c] ++ cs.take (k + 1))) t r u :=
      ih (done ++ [c]) rest' _ t h2 (by simp) (by omega) hlen (fun h => by have := h5 h; omega)
    cases x with
    | made =>
      obtain ⟨r, u, h7, h8⟩ := next
      exact ⟨r, u, h7, .more hm (by simp) h8⟩
    | «exists» =>
      obtain ⟨r, u, h7, h8⟩ := next
      exact ⟨r, u, h7, .more hm (by simp) h8⟩
    | failed => exact ⟨-1, t, rfl, .stop hm⟩

theorem loop_start {σ : Type} (mkdir : Name → σ → Result × σ) (size : Nat) (path : Name) (cs : List Name) (s : σ) (h : Split 47#8 path cs) (hl : path.length + 1 ≤ size) :
    ∃ r u, loop mkdir size path 0 [] s = some (r, u) ∧ Calls mkdir (prefixes (decide (path.head? = some 47#8)) cs) s r u := by
  cases cs with
  | nil =>
    rw [loop_step, (strtok_split h).1 rfl]
    exact ⟨0, s, rfl, .nil⟩
  | cons c cs =>
    obtain ⟨k, rest', h1, h2, h3, h4, h5, h6, -⟩ := (strtok_split h).2 c cs rfl
    have hc : c.length ≠ 0 := fun h => h6 (List.eq_nil_of_length_eq_zero h)
    rw [loop_step, h1]
    simp only []
    generalize hb : decide (path.head? = some 47#8) = b
    have e : ((if 0 + k ≠ 0 then strcat size [] [47#8] else some []).bind fun sink => strcat size sink c) = some (join b [c]) := by
      by_cases hk : k = 0
      · have : b = false := by rw [← hb]; exact decide_eq_false (h3.1 hk)
        rw [if_neg (by omega), this]
        simp only [Option.bind_some]
        unfold strcat
        rw [if_pos (by simp; omega)]
        rfl
      · have : b = true := by rw [← hb]; exact decide_eq_true (Classical.not_not.1 fun h => hk (h3.2 h))
        rw [if_pos (by omega), this]
        unfold strcat
        rw [if_pos (by simp; omega)]
        simp only [Option.bind_some]
        rw [if_pos (by simp; omega)]
        rfl
    rw [e]
    simp only []
    have hlen : (join b [c]).length + 1 ≤ 0 + k + c.length + 1 := by
      by_cases hk : k = 0
      · have : b = false := by rw [← hb]; exact decide_eq_false (h3.1 hk)
        rw [this]
        simp [join]
      · cases b <;> simp [join] <;> omega
    have ep : prefixes b (c :: cs) = join b [c] :: (List.range cs.length).map fun k => join b ([c] ++ cs.take (k + 1)) := prefixes_cons (done := []) b c cs
    rw [ep]
    rcases hm : mkdir (join b [c]) s with ⟨x, t⟩
    have next := loop_calls mkdir size b cs [c] rest' (0 + k + c.length + 1) t h2 (by simp) (by omega) hlen (fun h => by have := h5 h; omega)
    cases x with
    | made =>
      obtain ⟨r, u, h7, h8⟩ := next
      exact ⟨r, u, h7, .more hm (by simp) h8⟩
    | «exists» =>
      obtain ⟨r, u, h7, h8⟩ := next
      exact ⟨r, u, h7, .more hm (by simp) h8⟩
    | failed => exact ⟨-1, t, rfl, .stop hm⟩

theorem strrchr_none {c : Byte} {s : Name} : strrchr c s = none ↔ c ∉ s := by
  induction s with
  | nil => simp [strrchr]
  | cons b s ih =>
    unfold strrchr
    cases h : strrchr c s with
    | some i =>
      have : ¬ c ∉ s := fun hc => by rw [ih.2 hc] at h; cases h
      simp only [reduceCtorEq, List.mem_cons, not_or, false_iff]
      exact fun hh => this hh.2
    | none =>
      have hc := ih.1 h
      simp only [List.mem_cons, not_or]
      by_cases hb : b = c
      · rw [if_pos hb]
        simp [hb]
      · rw [if_neg hb]
        simp [hc, Ne.symm hb]

theorem strrchr_some {c : Byte} {d f : Name} (h : c ∉ f) : strrchr c (d ++ c :: f) = some d.length := by
  induction d with
  | nil =>
    show strrchr c (c :: f) = _
    unfold strrchr
    rw [strrchr_none.2 h]
    simp
  | cons b d ih =>
    rw [List.cons_append]
    unfold strrchr
    rw [ih]
    simp

theorem strrchr_split {c : Byte} {s : Name} (h : c ∈ s) : ∃ d f, s = d ++ c :: f ∧ c ∉ f := by
  induction s with
  | nil => cases h
  | cons b s ih =>
    by_cases hs : c ∈ s
    · obtain ⟨d, f, rfl, hf⟩ := ih hs
      exact ⟨b :: d, f, rfl, hf⟩
    · rcases List.mem_cons.1 h with rfl | h
      · exact ⟨[], s, rfl, hs⟩
      · exact absurd h hs

theorem scan_step {σ : Type} (stat : Name → σ → Bool × σ) (rest file : Name) (s : σ) :
    scanLoop stat rest file s =
      match strtok 58#8 rest with
      | none => (none, s)
      | some (_, pre, rest') =>
        if (pre ++ 47#8 :: file).length ≥ PATH then (none, s)
        else
          match stat (pre ++ 47#8 :: file) s with
          | (true, s) => (some (pre ++ 47#8 :: file), s)
          | (false, s) => scanLoop stat rest' file s := by
  rw [scanLoop]
  split
  · rename_i h
    rw [h]
  · rename_i k token rest' h
    simp only [h]
    rfl

/-- The search goes through the candidates up to the first that is too long. -/
theorem scan_search {σ : Type} (stat : Name → σ → Bool × σ) (file : Name) : ∀ (cs : List Name) (rest : Name) (s : σ), Split 58#8 rest cs →
    Search stat ((cs.map fun c => c ++ 47#8 :: file).takeWhile fun p => decide (p.length < 4096)) s (scanLoop stat rest file s).1 (scanLoop stat rest file s).2 := by
  intro cs
  induction cs with
  | nil =>
    intro rest s h
    rw [scan_step, (strtok_split h).1 rfl]
    exact .nil
  | cons c cs ih =>
    intro rest s h
    obtain ⟨k, rest', h1, h2, -⟩ := (strtok_split h).2 c cs rfl
    rw [scan_step, h1, List.map_cons, List.takeWhile_cons]
    simp only []
    have hP : PATH = 4096 := rfl
    by_cases hl : (c ++ 47#8 :: file).length ≥ PATH
    · rw [if_pos hl, if_neg (by simp only [decide_eq_true_eq]; omega)]
      exact .nil
    · rw [if_neg hl, if_pos (by simp only [decide_eq_true_eq]; omega)]
      rcases hs : stat (c ++ 47#8 :: file) s with ⟨b, t⟩
      cases b with
      | true => exact .found hs
      | false => exact .next hs (ih rest' t h2)

end Diminuto.Mkdir
