import Verif.WalkerLemmas

/-!
# Lemmas about the walk through a file system that does not change
-/

namespace Diminuto.Walker

/-- Either an object or the entries of a directory. -/
inductive Item where
  | obj (path name : Name) (depth : Nat)
  | list (dir : Name) (depth : Nat) (names : List Name)

/-- The visits for an item. -/
inductive W (fs : Fs) : Item → List Visit → Prop
  | gone {p n : Name} {d : Nat} {e : Errno} : p.length ≤ 4094 → d ≤ 2048 → fs.mode p = .error e → tolerated e = true → W fs (.obj p n d) []
  | file {p n : Name} {d : Nat} {m : BitVec 32} : p.length ≤ 4094 → d ≤ 2048 → fs.mode p = .ok m → directory m = false → W fs (.obj p n d) [⟨n, p, d, m⟩]
  | denied {p n : Name} {d : Nat} {m : BitVec 32} {e : Errno} : p.length ≤ 4094 → d ≤ 2048 → fs.mode p = .ok m → directory m = true → fs.names p = .error e →
      toleratedDir e = true → W fs (.obj p n d) [⟨n, p, d, m⟩]
  | dir {p n : Name} {d : Nat} {m : BitVec 32} {l : List Name} {vs : List Visit} : p.length ≤ 4094 → d ≤ 2048 → fs.mode p = .ok m → directory m = true → fs.names p = .ok l →
      W fs (.list p (d + 1) l) vs → W fs (.obj p n d) (⟨n, p, d, m⟩ :: vs)
  | nil {p : Name} {d : Nat} : W fs (.list p d []) []
  | skip {p n : Name} {d : Nat} {l : List Name} {vs : List Visit} : ¬ Proper n → W fs (.list p d l) vs → W fs (.list p d (n :: l)) vs
  | cons {p n : Name} {d : Nat} {l : List Name} {us vs : List Visit} : Proper n → W fs (.obj (under p n) n d) us → W fs (.list p d l) vs → W fs (.list p d (n :: l)) (us ++ vs)

/-- The walk over a list of visits until the callback returns something else than zero. -/
def stopped (f : List Visit → Visit → Int) (log : List Visit) : List Visit → Int × List Visit
  | [] => (0, log)
  | v :: vs => if f log v ≠ 0 then (f log v, log ++ [v]) else stopped f (log ++ [v]) vs

theorem stopped_append (f : List Visit → Visit → Int) (us vs : List Visit) : ∀ log, stopped f log (us ++ vs) =
    if (stopped f log us).1 = 0 then stopped f (stopped f log us).2 vs else stopped f log us := by
  induction us with
  | nil => intro log; rfl
  | cons u us ih =>
    intro log
    rw [List.cons_append, stopped, stopped]
    by_cases h : f log u ≠ 0
    · rw [if_pos h, if_pos h, if_neg h]
    · rw [if_neg h, if_neg h]
      exact ih _

theorem stopped_outcome (f : List Visit → Visit → Int) (vs : List Visit) : ∀ log,
    ((stopped f log vs).1 = 0 ∧ (stopped f log vs).2 = log ++ vs ∧ ∀ i (h : i < vs.length), f (log ++ vs.take i) vs[i] = 0) ∨
    ∃ i, ∃ h : i < vs.length, (stopped f log vs).1 = f (log ++ vs.take i) vs[i] ∧ (stopped f log vs).1 ≠ 0 ∧ (stopped f log vs).2 = log ++ vs.take (i + 1) ∧
      ∀ j (hj : j < i), f (log ++ vs.take j) vs[j] = 0 := by
  induction vs with
  | nil => intro log; exact .inl ⟨rfl, by simp [stopped], fun i h => absurd h (by simp)⟩
  | cons v vs ih =>
    intro log
    rw [stopped]
    by_cases h : f log v ≠ 0
    · rw [if_pos h]
      exact .inr ⟨0, by simp, by simp, h, by simp, fun j hj => absurd hj (by omega)⟩
    · rw [if_neg h]
      have h : f log v = 0 := Classical.not_not.1 h
      rcases ih (log ++ [v]) with ⟨h1, h2, h3⟩ | ⟨i, hi, h1, h2, h3, h4⟩
      · refine .inl ⟨h1, by rw [h2]; simp, fun i hi => ?_⟩
        cases i with
        | zero => simpa using h
        | succ i =>
          have := h3 i (by simp at hi; omega)
          simpa using this
      · refine .inr ⟨i + 1, by simp; omega, by rw [h1]; simp, h2, by rw [h3]; simp, fun j hj => ?_⟩
        cases j with
        | zero => simpa using h
        | succ j =>
          have := h4 j (by omega)
          simpa using this

theorem outcome_stopped (f : List Visit → Visit → Int) (vs : List Visit) : Outcome f vs (stopped f [] vs).1 (stopped f [] vs).2 := by
  have := stopped_outcome f vs []
  simpa [Outcome] using this

theorem not_proper {n : Name} : ¬ Proper n ↔ (n = [] ∨ n = [46#8] ∨ n = [46#8, 46#8]) := by
  unfold Proper
  constructor
  · intro h
    by_cases h1 : n = []
    · exact .inl h1
    · by_cases h2 : n = [46#8]
      · exact .inr (.inl h2)
      · by_cases h3 : n = [46#8, 46#8]
        · exact .inr (.inr h3)
        · exact absurd ⟨h1, h2, h3⟩ h
  · rintro (h | h | h) ⟨h1, h2, h3⟩
    · exact h1 h
    · exact h2 h
    · exact h3 h

/-- The walk does what is specified. -/
theorem walker_w {fs : Fs} {f : List Visit → Visit → Int} {i : Item} {vs : List Visit} (h : W fs i vs) :
    match i with
    | .obj p n d => ∀ t log, place t n = p → n ≠ [] → awalker (fs.sys f) n t d log = stopped f log vs
    | .list p d l => ∀ log, p ≠ [] → aentries (fs.sys f) l false p d log = stopped f log vs := by
  have start : ∀ (p n t : Name) (d : Nat) (log : List Visit), p.length ≤ 4094 → d ≤ 2048 → place t n = p → n ≠ [] →
      awalker (fs.sys f) n t d log =
        match fs.mode p with
        | .error e => if tolerated e then (0, log) else (-6, log)
        | .ok m =>
          if f log ⟨n, p, d, m⟩ ≠ 0 then (f log ⟨n, p, d, m⟩, log ++ [⟨n, p, d, m⟩])
          else if directory m then
            match fs.names p with
            | .error e => if toleratedDir e then (0, log ++ [⟨n, p, d, m⟩]) else (-7, log ++ [⟨n, p, d, m⟩])
            | .ok l => aentries (fs.sys f) l false p (d + 1) (log ++ [⟨n, p, d, m⟩])
          else (0, log ++ [⟨n, p, d, m⟩]) := by
    rintro p n t d log hp hd rfl hn
    have := place_length t n
    have hl : n.length ≠ 0 := fun h => hn (List.eq_nil_of_length_eq_zero h)
    have hP : PATH = 4096 := rfl
    rw [awalker, if_neg (by omega), dif_neg hl, dif_neg (by omega)]
    cases hm : fs.mode (place t n) with
    | error e =>
      have hls : (fs.sys f).lstat (place t n) log = (.error e, log) := by
        show (fs.mode _, log) = _
        rw [hm]
      simp only [hls]
    | ok m =>
      have hls : (fs.sys f).lstat (place t n) log = (.ok m, log) := by
        show (fs.mode _, log) = _
        rw [hm]
      have hcb : (fs.sys f).callback n (place t n) d m log = (f log ⟨n, place t n, d, m⟩, log ++ [⟨n, place t n, d, m⟩]) := rfl
      simp only [hls, hcb]
      by_cases hf : f log ⟨n, place t n, d, m⟩ ≠ 0
      · rw [if_pos hf, if_pos hf]
      · rw [if_neg hf, if_neg hf]
        by_cases hm' : directory m = true
        · rw [if_pos hm', if_pos hm']
          cases hn : fs.names (place t n) with
          | error e =>
            have hod : (fs.sys f).opendir (place t n) (log ++ [⟨n, place t n, d, m⟩]) = (.error e, log ++ [⟨n, place t n, d, m⟩]) := by
              simp only [Fs.sys, hn]
            simp only [hod]
          | ok l =>
            have hod : (fs.sys f).opendir (place t n) (log ++ [⟨n, place t n, d, m⟩]) = (.ok (l, false), log ++ [⟨n, place t n, d, m⟩]) := by
              simp only [Fs.sys, hn]
            simp only [hod]
            rfl
        · rw [if_neg hm', if_neg hm']
  induction h with
  | gone hp hd hm he =>
    intro t log ht hn
    rw [start _ _ t _ log hp hd ht hn, hm]
    simp only []
    rw [if_pos he]
    rfl
  | file hp hd hm he =>
    intro t log ht hn
    rw [start _ _ t _ log hp hd ht hn, hm]
    simp only []
    rw [he, stopped]
    rfl
  | denied hp hd hm he hl hi =>
    intro t log ht hn
    rw [start _ _ t _ log hp hd ht hn, hm]
    simp only []
    rw [he, hl, stopped, if_pos rfl]
    simp only []
    rw [if_pos hi]
    rfl
  | @dir p n d m l vs hp hd hm he hl _ ih =>
    intro t log ht hn
    rw [start _ _ t _ log hp hd ht hn, hm]
    simp only []
    rw [he, hl, stopped, if_pos rfl]
    simp only []
    rw [ih _ _]
    rintro rfl
    obtain ⟨y, z, h⟩ := place_prefix t n hn
    rw [ht] at h
    exact absurd h (by simp)
  | nil =>
    intro log _
    rw [aentries]
    rfl
  | skip hn _ ih =>
    intro log hp
    rw [aentries, if_pos (not_proper.1 hn)]
    exact ih log hp
  | @cons p n d l us vs hn _ _ ih1 ih2 =>
    intro log hp
    rw [aentries, if_neg (fun h => not_proper.2 h hn)]
    have := ih1 p log (by unfold place; rw [if_neg hp]) hn.1
    rw [this, stopped_append]
    simp only []
    by_cases h0 : (stopped f log us).1 = 0
    · rw [if_pos h0, if_pos h0]
      exact ih2 _ hp
    · rw [if_neg h0, if_neg h0]

theorem under_last {p m : Name} (hm : m ≠ []) (hs : 47#8 ∉ m) : (under p m).getLast? ≠ some 47#8 := by
  have e : (under p m).getLast? = m.getLast? := by
    obtain ⟨b, t, rfl⟩ := List.exists_cons_of_ne_nil hm
    unfold under
    split <;> simp [List.getLast?_append, List.getLast?_cons]
  rw [e]
  intro h
  exact hs (List.mem_of_getLast? h)

/-- The depth is limited by the length of the path. -/
theorem below_depth {fs : Fs} {root : Name} (hs : Sound fs root) {p n : Name} {d : Nat} (h : Below fs root p n d) :
    p ≠ [] ∧ n ≠ [] ∧ 2 * d ≤ p.length ∧ (d ≠ 0 → p.getLast? ≠ some 47#8) := by
  induction h with
  | root => exact ⟨hs.start.1, hs.start.1, by omega, fun h => absurd rfl h⟩
  | @entry p n d mode names m hb hm hd hn hmem hp ih =>
    obtain ⟨h1, -, h2, h3⟩ := ih
    have hns := (hs.names _ _ hn m hmem).2
    have hl : m.length ≠ 0 := fun h => hp.1 (List.eq_nil_of_length_eq_zero h)
    have hpl : p.length ≠ 0 := fun h => h1 (List.eq_nil_of_length_eq_zero h)
    have hu := under_length p m
    refine ⟨fun h => by rw [h, List.length_nil] at hu; omega, hp.1, ?_, fun _ => under_last hp.1 hns⟩
    by_cases hd0 : d = 0
    · omega
    · have : (under p m).length = p.length + 1 + m.length := by
        unfold under
        rw [if_neg (h3 hd0)]
        simp
        omega
      omega

/-- Every object has its list of visits. -/
theorem w_exists {fs : Fs} {root : Name} (hs : Sound fs root) (k : Nat) : ∀ p n d, 4095 - p.length ≤ k → Below fs root p n d → ∃ vs, W fs (.obj p n d) vs := by
  induction k with
  | zero =>
    intro p n d hk hb
    have := hs.short _ _ _ hb
    omega
  | succ k ih =>
    intro p n d hk hb
    have hl := hs.short _ _ _ hb
    have hd := (below_depth hs hb).2.2.1
    cases hm : fs.mode p with
    | error e => exact ⟨_, .gone hl (by omega) hm (hs.mode _ _ _ _ hb hm)⟩
    | ok m =>
      by_cases hdir : directory m = true
      · cases hn : fs.names p with
        | error e => exact ⟨_, .denied hl (by omega) hm hdir hn (hs.dir _ _ _ _ _ hb hm hdir hn)⟩
        | ok l =>
          have : ∀ l', (∀ x ∈ l', x ∈ l) → ∃ vs, W fs (.list p (d + 1) l') vs := by
            intro l'
            induction l' with
            | nil => intro _; exact ⟨_, .nil⟩
            | cons x l' ih2 =>
              intro hsub
              obtain ⟨vs, hvs⟩ := ih2 fun y hy => hsub y (List.mem_cons_of_mem _ hy)
              by_cases hx : Proper x
              · have hb' := Below.entry hb hm hdir hn (hsub x List.mem_cons_self) hx
                have := under_length p x
                have hx0 : x.length ≠ 0 := fun h => hx.1 (List.eq_nil_of_length_eq_zero h)
                obtain ⟨us, hus⟩ := ih _ _ _ (by omega) hb'
                exact ⟨_, .cons hx hus hvs⟩
              · exact ⟨_, .skip hx hvs⟩
          obtain ⟨vs, hvs⟩ := this l fun _ h => h
          exact ⟨_, .dir hl (by omega) hm hdir hn hvs⟩
      · exact ⟨_, .file hl (by omega) hm (by simpa using hdir)⟩

/-- Only what is below is visited. -/
theorem w_sound {fs : Fs} {root : Name} {i : Item} {vs : List Visit} (h : W fs i vs) :
    (match i with
    | .obj p n d => Below fs root p n d
    | .list p d l => ∀ m ∈ l, Proper m → Below fs root (under p m) m d) →
    ∀ v ∈ vs, Below fs root v.path v.name v.depth ∧ fs.mode v.path = .ok v.mode := by
  induction h with
  | gone => intro _ v hv; cases hv
  | file hp hd hm he =>
    intro hb v hv
    rw [List.mem_singleton.1 hv]
    exact ⟨hb, hm⟩
  | denied hp hd hm he =>
    intro hb v hv
    rw [List.mem_singleton.1 hv]
    exact ⟨hb, hm⟩
  | dir hp hd hm he hl _ ih =>
    intro hb v hv
    rcases List.mem_cons.1 hv with rfl | hv
    · exact ⟨hb, hm⟩
    · exact ih (fun m hm' hp => Below.entry hb hm he hl hm' hp) v hv
  | nil => intro _ v hv; cases hv
  | skip _ _ ih =>
    intro hb v hv
    exact ih (fun m hm => hb m (List.mem_cons_of_mem _ hm)) v hv
  | cons hn _ _ ih1 ih2 =>
    intro hb v hv
    rcases List.mem_append.1 hv with hv | hv
    · exact ih1 (hb _ List.mem_cons_self hn) v hv
    · exact ih2 (fun m hm => hb m (List.mem_cons_of_mem _ hm)) v hv

theorem w_entry {fs : Fs} {p : Name} {d : Nat} {l : List Name} : ∀ {vs : List Visit}, W fs (.list p d l) vs → ∀ m ∈ l, Proper m → ∃ us, W fs (.obj (under p m) m d) us ∧ ∀ v ∈ us, v ∈ vs := by
  induction l with
  | nil => intro vs _ m hm; cases hm
  | cons x l ih =>
    intro vs h m hm hp
    cases h with
    | skip hx h =>
      rcases List.mem_cons.1 hm with rfl | hm
      · exact absurd hp hx
      · exact ih h m hm hp
    | cons hx h1 h2 =>
      rcases List.mem_cons.1 hm with rfl | hm
      · exact ⟨_, h1, fun v hv => List.mem_append_left _ hv⟩
      · obtain ⟨us, hus, hsub⟩ := ih h2 m hm hp
        exact ⟨us, hus, fun v hv => List.mem_append_right _ (hsub v hv)⟩

/-- All that is below is visited. -/
theorem w_complete {fs : Fs} {root : Name} {vs : List Visit} (h : W fs (.obj root root 0) vs) {p n : Name} {d : Nat} (hb : Below fs root p n d) :
    ∃ us, W fs (.obj p n d) us ∧ ∀ v ∈ us, v ∈ vs := by
  induction hb with
  | root => exact ⟨vs, h, fun _ h => h⟩
  | entry hb hm hd hn hmem hp ih =>
    obtain ⟨us, hus, hsub⟩ := ih
    cases hus with
    | gone _ _ hm' _ => rw [hm] at hm'; cases hm'
    | file _ _ hm' hd' => rw [hm] at hm'; cases hm'; rw [hd] at hd'; cases hd'
    | denied _ _ _ _ hn' _ => rw [hn] at hn'; cases hn'
    | dir _ _ hm' _ hn' hl =>
      rw [hn] at hn'
      cases hn'
      obtain ⟨us', h1, h2⟩ := w_entry hl _ hmem hp
      exact ⟨us', h1, fun v hv => hsub v (List.mem_cons_of_mem _ (h2 v hv))⟩

theorem w_head {fs : Fs} {p n : Name} {d : Nat} {m : BitVec 32} {vs : List Visit} (h : W fs (.obj p n d) vs) (hm : fs.mode p = .ok m) : ∃ us, vs = ⟨n, p, d, m⟩ :: us := by
  cases h with
  | gone _ _ hm' _ => rw [hm] at hm'; cases hm'
  | file _ _ hm' _ => rw [hm] at hm'; cases hm'; exact ⟨_, rfl⟩
  | denied _ _ hm' => rw [hm] at hm'; cases hm'; exact ⟨_, rfl⟩
  | dir _ _ hm' => rw [hm] at hm'; cases hm'; exact ⟨_, rfl⟩

/-- A directory is visited before its entries. -/
theorem w_order {fs : Fs} {i : Item} {vs : List Visit} (h : W fs i vs) :
    match i with
    | .obj p n d => ∀ (k : Nat) (v : Visit), vs[k]? = some v → (k = 0 ∧ v.path = p ∧ v.name = n ∧ v.depth = d) ∨
        ∃ j, j < k ∧ ∃ w, vs[j]? = some w ∧ v.path = under w.path v.name ∧ v.depth = w.depth + 1
    | .list p d _ => ∀ (k : Nat) (v : Visit), vs[k]? = some v → (v.path = under p v.name ∧ v.depth = d) ∨
        ∃ j, j < k ∧ ∃ w, vs[j]? = some w ∧ v.path = under w.path v.name ∧ v.depth = w.depth + 1 := by
  have one : ∀ (x : Visit) (k : Nat) (v : Visit), [x][k]? = some v → k = 0 ∧ v = x := by
    intro x k v h
    cases k with
    | zero => simp at h; exact ⟨rfl, h.symm⟩
    | succ k => simp at h
  induction h with
  | gone => intro k v h; simp at h
  | file =>
    intro k v h
    obtain ⟨rfl, rfl⟩ := one _ _ _ h
    exact .inl ⟨rfl, rfl, rfl, rfl⟩
  | denied =>
    intro k v h
    obtain ⟨rfl, rfl⟩ := one _ _ _ h
    exact .inl ⟨rfl, rfl, rfl, rfl⟩
  | dir hp hd hm he hl _ ih =>
    intro k v h
    cases k with
    | zero =>
      simp at h
      subst h
      exact .inl ⟨rfl, rfl, rfl, rfl⟩
    | succ k =>
      rw [List.getElem?_cons_succ] at h
      right
      rcases ih k v h with ⟨h1, h2⟩ | ⟨j, hj, w, h1, h2, h3⟩
      · exact ⟨0, by omega, _, List.getElem?_cons_zero, h1, h2⟩
      · exact ⟨j + 1, by omega, w, by rw [List.getElem?_cons_succ]; exact h1, h2, h3⟩
  | nil => intro k v h; simp at h
  | skip _ _ ih => exact ih
  | @cons p n d l us vs hn _ _ ih1 ih2 =>
    intro k v h
    by_cases hk : k < us.length
    · rw [List.getElem?_append_left hk] at h
      rcases ih1 k v h with ⟨-, h1, h2, h3⟩ | ⟨j, hj, w, h1, h2, h3⟩
      · exact .inl ⟨by rw [h1, h2], h3⟩
      · exact .inr ⟨j, hj, w, by rw [List.getElem?_append_left (by omega)]; exact h1, h2, h3⟩
    · rw [List.getElem?_append_right (by omega)] at h
      rcases ih2 _ v h with h1 | ⟨j, hj, w, h1, h2, h3⟩
      · exact .inl h1
      · exact .inr ⟨us.length + j, by omega, w, by rw [List.getElem?_append_right (by omega), Nat.add_sub_cancel_left]; exact h1, h2, h3⟩

/-- What the paths of the entries of a directory begin with. -/
def stem (p : Name) : Name := if p.getLast? = some 47#8 then p else p ++ [47#8]

theorem under_stem (p n : Name) : under p n = stem p ++ n := by
  unfold under stem
  split <;> simp

theorem stem_under {p m : Name} (hm : m ≠ []) (hs : 47#8 ∉ m) : stem (under p m) = under p m ++ [47#8] := by
  unfold stem
  rw [if_neg (under_last hm hs)]

theorem split_slash {n m x y : Name} (hn : 47#8 ∉ n) (hm : 47#8 ∉ m) (hx : x = [] ∨ ∃ z, x = 47#8 :: z) (hy : y = [] ∨ ∃ z, y = 47#8 :: z) (h : n ++ x = m ++ y) : n = m := by
  have key : ∀ a b : Name, 47#8 ∉ a → (b = [] ∨ ∃ z, b = 47#8 :: z) → (a ++ b).takeWhile (· ≠ 47#8) = a := by
    intro a b ha hb
    rw [List.takeWhile_append_of_pos]
    · rcases hb with rfl | ⟨z, rfl⟩ <;> simp
    · intro c hc
      apply decide_eq_true
      rintro rfl
      exact ha hc
  rw [← key n x hn hx, h, key m y hm hy]

/-- Nothing is visited twice. -/
theorem w_nodup {fs : Fs} {root : Name} (hs : Sound fs root) (hd : Distinct fs) {i : Item} {vs : List Visit} (h : W fs i vs) :
    (match i with
    | .obj p n d => Below fs root p n d
    | .list p d l => l.Nodup ∧ (∀ m ∈ l, 47#8 ∉ m) ∧ ∀ m ∈ l, Proper m → Below fs root (under p m) m d) →
    (vs.map Visit.path).Nodup ∧
    (match i with
    | .obj p _ _ => ∀ v ∈ vs, v.path = p ∨ ∃ z, z ≠ [] ∧ v.path = stem p ++ z
    | .list p _ l => ∀ v ∈ vs, ∃ m ∈ l, ∃ z, Proper m ∧ v.path = stem p ++ (m ++ z) ∧ (z = [] ∨ ∃ y, z = 47#8 :: y)) := by
  induction h with
  | gone => exact fun _ => ⟨List.nodup_nil, fun v hv => by cases hv⟩
  | file => exact fun _ => ⟨by simp, fun v hv => .inl (by rw [List.mem_singleton.1 hv])⟩
  | denied => exact fun _ => ⟨by simp, fun v hv => .inl (by rw [List.mem_singleton.1 hv])⟩
  | @dir p n d m l vs hp hdep hm he hl _ ih =>
    intro hb
    obtain ⟨h1, h2⟩ := ih ⟨hd _ _ hl, fun x hx => (hs.names _ _ hl x hx).2, fun x hx hp => Below.entry hb hm he hl hx hp⟩
    have h2 : ∀ v ∈ vs, ∃ m ∈ l, ∃ z, Proper m ∧ v.path = stem p ++ (m ++ z) ∧ (z = [] ∨ ∃ y, z = 47#8 :: y) := h2
    have long : ∀ v ∈ vs, ∃ z, z ≠ [] ∧ v.path = stem p ++ z := by
      intro v hv
      obtain ⟨x, -, z, hx, hv, -⟩ := h2 v hv
      exact ⟨x ++ z, fun h => hx.1 (List.append_eq_nil_iff.1 h).1, hv⟩
    constructor
    · rw [List.map_cons, List.nodup_cons]
      refine ⟨fun hmem => ?_, h1⟩
      obtain ⟨v, hv, he⟩ := List.mem_map.1 hmem
      obtain ⟨z, hz, hv⟩ := long v hv
      have he : v.path = p := he
      rw [he] at hv
      have := congrArg List.length hv
      have hz0 : z.length ≠ 0 := fun h => hz (List.eq_nil_of_length_eq_zero h)
      rw [List.length_append] at this
      unfold stem at this
      split at this
      · omega
      · simp at this
        omega
    · intro v hv
      rcases List.mem_cons.1 hv with rfl | hv
      · exact .inl rfl
      · exact .inr (long v hv)
  | nil => exact fun _ => ⟨List.nodup_nil, fun v hv => by cases hv⟩
  | skip hx _ ih =>
    rintro ⟨h1, h2, h3⟩
    obtain ⟨h4, h5⟩ := ih ⟨(List.nodup_cons.1 h1).2, fun m hm => h2 m (List.mem_cons_of_mem _ hm), fun m hm => h3 m (List.mem_cons_of_mem _ hm)⟩
    refine ⟨h4, fun v hv => ?_⟩
    obtain ⟨m, hm, r⟩ := h5 v hv
    exact ⟨m, List.mem_cons_of_mem _ hm, r⟩
  | @cons p n d l us vs hn _ _ ih1 ih2 =>
    rintro ⟨h1, h2, h3⟩
    obtain ⟨h4, h5⟩ := ih2 ⟨(List.nodup_cons.1 h1).2, fun m hm => h2 m (List.mem_cons_of_mem _ hm), fun m hm => h3 m (List.mem_cons_of_mem _ hm)⟩
    obtain ⟨h6, h7⟩ := ih1 (h3 _ List.mem_cons_self hn)
    have hns := h2 n List.mem_cons_self
    have h7 : ∀ v ∈ us, ∃ z, v.path = stem p ++ (n ++ z) ∧ (z = [] ∨ ∃ y, z = 47#8 :: y) := by
      intro v hv
      rcases h7 v hv with e | ⟨z, hz, e⟩
      · exact ⟨[], by rw [e, under_stem, List.append_nil], .inl rfl⟩
      · exact ⟨47#8 :: z, by rw [e, stem_under hn.1 hns, under_stem]; simp, .inr ⟨z, rfl⟩⟩
    constructor
    · rw [List.map_append, List.nodup_append]
      refine ⟨h6, h4, ?_⟩
      intro a ha b hb hab
      obtain ⟨v, hv, rfl⟩ := List.mem_map.1 ha
      obtain ⟨w, hw, rfl⟩ := List.mem_map.1 hb
      obtain ⟨z, hz, hz'⟩ := h7 v hv
      obtain ⟨m, hm, y, -, hy, hy'⟩ := h5 w hw
      rw [hz, hy] at hab
      have hab := List.append_cancel_left hab
      have := split_slash hns (h2 m (List.mem_cons_of_mem _ hm)) hz' hy' hab
      subst this
      exact (List.nodup_cons.1 h1).1 hm
    · intro v hv
      rcases List.mem_append.1 hv with hv | hv
      · obtain ⟨z, hz, hz'⟩ := h7 v hv
        exact ⟨n, List.mem_cons_self, z, hn, hz, hz'⟩
      · obtain ⟨m, hm, r⟩ := h5 v hv
        exact ⟨m, List.mem_cons_of_mem _ hm, r⟩

end Diminuto.Walker
