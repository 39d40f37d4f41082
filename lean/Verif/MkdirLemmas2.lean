import Verif.MkdirLemmas

/-!
# Lemmas about the making of directories in a file system
-/

namespace Diminuto.Mkdir

/-- Where a path is. -/
def home (cwd : List Name) (b : Bool) : List Name := if b then [] else cwd

theorem honest_join {cwd : List Name} {mkdir : Name → Fs → Result × Fs} (h : Honest cwd mkdir) (b : Bool) (cs : List Name) (hc : ∀ c ∈ cs, c ≠ [] ∧ 47#8 ∉ c) (hn : cs ≠ []) (fs : Fs) :
    Makes (home cwd b ++ cs) fs (mkdir (join b cs) fs).1 (mkdir (join b cs) fs).2 := by
  obtain ⟨h1, h2⟩ := join_split b cs hc hn
  have := h _ _ fs h1 hn
  unfold home
  cases b with
  | true => rw [if_pos (h2.2 rfl)] at this; exact this
  | false => rw [if_neg (fun e => by have := h2.1 e; cases this)] at this; exact this

theorem makes_keeps {cs : List Name} {fs fs' : Fs} {x : Result} (h : Makes cs fs x fs') :
    (∀ p, fs p ≠ none → fs' p = fs p) ∧ (∀ p, fs' p ≠ fs p → p = cs ∧ fs' p = some .directory) ∧ (x ≠ .failed → fs cs.dropLast = some .directory ∧ fs' cs ≠ none) := by
  cases h with
  | made h1 h2 =>
    refine ⟨fun p hp => ?_, fun p hp => ?_, fun _ => ⟨h1, by simp⟩⟩
    · simp only []
      rw [if_neg]
      rintro rfl
      exact hp h2
    · simp only [] at hp ⊢
      by_cases hc : p = cs
      · exact ⟨hc, by rw [if_pos hc]⟩
      · rw [if_neg hc] at hp
        exact absurd rfl hp
  | «exists» h1 h2 => exact ⟨fun p _ => rfl, fun p hp => absurd rfl hp, fun _ => ⟨h1, h2⟩⟩
  | failed => exact ⟨fun p _ => rfl, fun p hp => absurd rfl hp, fun h => absurd rfl h⟩

theorem calls_fs {cwd : List Name} {mkdir : Name → Fs → Result × Fs} (h : Honest cwd mkdir) (b : Bool) : ∀ (cs done : List Name) (fs : Fs) (r : Int) (fs' : Fs),
    (∀ c ∈ done ++ cs, c ≠ [] ∧ 47#8 ∉ c) → Calls mkdir ((List.range cs.length).map fun k => join b (done ++ cs.take (k + 1))) fs r fs' →
    (∀ p, fs p ≠ none → fs' p = fs p) ∧
    (∀ p, fs' p ≠ fs p → fs' p = some .directory ∧ ∃ k, 1 ≤ k ∧ k ≤ cs.length ∧ p = home cwd b ++ (done ++ cs.take k)) ∧
    (r = 0 → cs ≠ [] → (∀ k, k < cs.length → fs' (home cwd b ++ (done ++ cs.take k)) = some .directory) ∧ fs' (home cwd b ++ (done ++ cs)) ≠ none) := by
  intro cs
  induction cs with
  | nil =>
    intro done fs r fs' _ hc
    cases hc
    exact ⟨fun p _ => rfl, fun p hp => absurd rfl hp, fun _ h => absurd rfl h⟩
  | cons c cs ih =>
    intro done fs r fs' hok hc
    rw [prefixes_cons] at hc
    have hm := honest_join h b (done ++ [c]) (fun d hd => hok d (by simp at hd ⊢; rcases hd with hd | hd <;> simp [hd])) (by simp) fs
    have hdl : (home cwd b ++ (done ++ [c])).dropLast = home cwd b ++ done := by
      rw [← List.append_assoc, List.dropLast_concat]
    cases hc with
    | @more _ _ _ fs1 _ x _ e hx hcs =>
      rw [e] at hm
      obtain ⟨k1, k2, k3⟩ := makes_keeps hm
      simp only [] at k1 k2 k3
      obtain ⟨k3, k4⟩ := k3 hx
      rw [hdl] at k3
      obtain ⟨i1, i2, i3⟩ := ih (done ++ [c]) fs1 r fs' (by simpa using hok) hcs
      refine ⟨fun p hp => ?_, fun p hp => ?_, fun hr _ => ⟨fun k hk => ?_, ?_⟩⟩
      · rw [i1 p (by rw [k1 p hp]; exact hp), k1 p hp]
      · by_cases h1 : fs' p = fs1 p
        · rw [h1] at hp ⊢
          obtain ⟨rfl, h2⟩ := k2 p hp
          exact ⟨h2, 1, by omega, by simp, by simp⟩
        · obtain ⟨h2, k, h3, h4, h5⟩ := i2 p h1
          exact ⟨h2, k + 1, by omega, by simp; omega, by rw [h5]; simp⟩
      · cases k with
        | zero =>
          have e0 : fs1 (home cwd b ++ done) = some .directory := by rw [k1 _ (by rw [k3]; simp), k3]
          rw [List.take_zero, List.append_nil, i1 _ (by rw [e0]; simp), e0]
        | succ k =>
          have hk : k < cs.length := by simpa using hk
          have := (i3 hr (by rintro rfl; simp at hk)).1 k hk
          simpa using this
      · by_cases hcs0 : cs = []
        · subst hcs0
          cases hcs
          exact k4
        · have := (i3 hr hcs0).2
          simpa using this
    | stop e =>
      rw [e] at hm
      obtain ⟨k1, k2, -⟩ := makes_keeps hm
      simp only [] at k1 k2
      refine ⟨k1, fun p hp => ?_, fun hr => by cases hr⟩
      obtain ⟨rfl, h2⟩ := k2 p hp
      exact ⟨h2, 1, by omega, by simp, by simp⟩

theorem calls_able {cwd : List Name} {mkdir : Name → Fs → Result × Fs} (h : Honest cwd mkdir) (b : Bool)
    (ha : ∀ cs fs, (∀ c ∈ cs, c ≠ [] ∧ 47#8 ∉ c) → cs ≠ [] → (mkdir (join b cs) fs).1 = .failed → fs (home cwd b ++ cs).dropLast ≠ some .directory) :
    ∀ (cs done : List Name) (fs : Fs) (r : Int) (fs' : Fs),
    (∀ c ∈ done ++ cs, c ≠ [] ∧ 47#8 ∉ c) → Calls mkdir ((List.range cs.length).map fun k => join b (done ++ cs.take (k + 1))) fs r fs' →
    fs (home cwd b ++ done) = some .directory → (∀ k, k < cs.length → fs (home cwd b ++ (done ++ cs.take k)) ≠ some .file) → r = 0 := by
  intro cs
  induction cs with
  | nil =>
    intro done fs r fs' _ hc _ _
    cases hc
    rfl
  | cons c cs ih =>
    intro done fs r fs' hok hc hd hf
    rw [prefixes_cons] at hc
    have hok' : ∀ d ∈ done ++ [c], d ≠ [] ∧ 47#8 ∉ d := fun d hd => hok d (by simp at hd ⊢; rcases hd with hd | hd <;> simp [hd])
    have hm := honest_join h b (done ++ [c]) hok' (by simp) fs
    have hdl : (home cwd b ++ (done ++ [c])).dropLast = home cwd b ++ done := by
      rw [← List.append_assoc, List.dropLast_concat]
    cases hc with
    | @more _ _ _ fs1 _ x _ e hx hcs =>
      rw [e] at hm
      obtain ⟨k1, k2, k3⟩ := makes_keeps hm
      simp only [] at k1 k2 k3
      obtain ⟨k3, k4⟩ := k3 hx
      by_cases hcs0 : cs = []
      · subst hcs0
        cases hcs
        rfl
      · have hl : cs.length ≠ 0 := fun h => hcs0 (List.eq_nil_of_length_eq_zero h)
        have nofile : ∀ p, fs p ≠ some .file → fs1 p ≠ some .file := by
          intro p hp hp1
          by_cases he : fs1 p = fs p
          · rw [he] at hp1
            exact hp hp1
          · rw [(k2 p he).2] at hp1
            cases hp1
        refine ih (done ++ [c]) fs1 r fs' (by simpa using hok) hcs ?_ ?_
        · have := nofile _ (hf 1 (by simp; omega))
          have e1 : home cwd b ++ (done ++ (c :: cs).take 1) = home cwd b ++ (done ++ [c]) := by simp
          rw [e1] at this
          cases hv : fs1 (home cwd b ++ (done ++ [c])) with
          | none => exact absurd hv k4
          | some v =>
            cases v with
            | directory => rfl
            | file => exact absurd hv this
        · intro k hk
          have := nofile _ (hf (k + 1) (by simp; omega))
          simpa using this
    | stop e =>
      have := ha (done ++ [c]) fs hok' (by simp) (by rw [e])
      rw [hdl] at this
      exact absurd hd this

end Diminuto.Mkdir
