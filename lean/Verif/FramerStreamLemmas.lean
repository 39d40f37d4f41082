import Verif.FramerStream
import Verif.FramerReaderLemmas

/-!
# Lemmas on reading frames from a buffered stream
-/

namespace Diminuto.Framer

/-- The outgoing number plays no role in receiving. -/
theorem machineByte_generated (f : Framer) (n : BitVec 16) (c : Byte) :
    machineByte { f with generated := n } c = (machineByte f c).map (fun g => { g with generated := n }) := by
  unfold machineByte
  simp only []
  generalize (if (escaped f.state && kind c == Kind.other) = true then c ^^^ MASK else c) = ch
  generalize (if c = XON then false else if c = XOFF then true else f.throttle) = t
  generalize transition f.state f.limit (kind c) = tr
  obtain ⟨next, action⟩ := tr
  simp only []
  have hst : ∀ (x : Framer), store ch { x with generated := n } = (store ch x).map (fun g => { g with generated := n }) := by
    intro x
    unfold store
    by_cases h0 : x.limit = 0
    · simp [h0]
    · simp only [h0, if_false]
      rcases x.here with ⟨fl, i⟩
      cases fl <;> rcases i with _ | _ | _ | i <;> simp
  have hs := hst { f with total := f.total + 1, state := next, throttle := t }
  simp only [] at hs
  cases action with
  | reset => rfl
  | consume => rfl
  | store => simp only [act]; rw [hs]
  | length => simp only [act]; rw [hs]; simp only [Option.map_map]; rfl
  | sequence => simp only [act]; rw [hs]; simp only [Option.map_map]; rfl
  | fletcher =>
    simp only [act]; rw [hs]; simp only [Option.map_map]
    congr 1
    funext g
    simp only [Function.comp, actFletcher]
    split <;> [rfl; (split <;> [rfl; (split <;> rfl)])]
  | payload =>
    simp only [act]; rw [hs]
    cases store ch { f with total := f.total + 1, state := next, throttle := t } with
    | none => rfl
    | some g =>
      simp only [Option.map_some, Option.bind_some, actPayload]
      split <;> rfl
  | kermit =>
    simp only [act]; rw [hs]; simp only [Option.map_map]
    congr 1
    funext g
    simp only [Function.comp, actKermit]
    repeat' split
    all_goals rfl
  | terminate =>
    simp only [act, actTerminate]
    repeat' split
    all_goals rfl

theorem store_total (ch : Byte) (x y : Framer) (h : store ch x = some y) : y.total = x.total := by
  unfold store at h
  by_cases h0 : x.limit = 0
  · simp [h0] at h
  · simp only [h0, if_false] at h
    rcases hh : x.here with ⟨fl, i⟩
    rw [hh] at h
    cases fl <;> rcases i with _ | _ | _ | i <;> simp at h <;> (try (obtain ⟨_, h⟩ := h)) <;> (try subst h) <;> (try rfl)

theorem act_total (a : Action) (ch : Byte) (x y : Framer) (h : act a ch x = some y) (ha : a ≠ .reset) : y.total = x.total := by
  cases a with
  | reset => exact absurd rfl ha
  | consume => cases h; rfl
  | store => exact store_total _ _ _ h
  | length =>
    simp only [act, Option.map_eq_some_iff] at h
    obtain ⟨z, hz, rfl⟩ := h
    rw [← store_total _ _ _ hz]
    rfl
  | sequence =>
    simp only [act, Option.map_eq_some_iff] at h
    obtain ⟨z, hz, rfl⟩ := h
    rw [← store_total _ _ _ hz]
    rfl
  | fletcher =>
    simp only [act, Option.map_eq_some_iff] at h
    obtain ⟨z, hz, rfl⟩ := h
    rw [← store_total _ _ _ hz]
    unfold actFletcher
    split <;> [rfl; (simp only []; split <;> [rfl; (split <;> rfl)])]
  | payload =>
    simp only [act, Option.bind_eq_some_iff] at h
    obtain ⟨z, hz, h⟩ := h
    rw [← store_total _ _ _ hz]
    unfold actPayload at h
    split at h
    · cases h; rfl
    · cases h
  | kermit =>
    simp only [act, Option.map_eq_some_iff] at h
    obtain ⟨z, hz, rfl⟩ := h
    rw [← store_total _ _ _ hz]
    unfold actKermit
    simp only []
    repeat' split
    all_goals rfl
  | terminate =>
    simp only [act] at h
    unfold actTerminate at h
    simp only [] at h
    split at h
    · split at h
      · cases h; rfl
      · cases h
    · cases h; rfl

theorem transition_reset (s : St) (limit : Nat) (k : Kind) (hk : k ≠ .flag) : (transition s limit k).2 ≠ .reset := by
  cases k
  · cases s <;> simp [transition]
  · exact absurd rfl hk
  · cases s <;> simp [transition]
  · cases s <;> simp [transition]
  · cases s <;> simp [transition] <;> (repeat' split) <;> simp

/-- The count of octets goes up by one unless it is set to one by a flag. -/
theorem machineByte_total (f g : Framer) (c : Byte) (h : machineByte f c = some g) : 1 ≤ g.total ∧ (kind c ≠ .flag → g.total = f.total + 1) := by
  unfold machineByte at h
  simp only [] at h
  have hk := transition_reset f.state f.limit (kind c)
  by_cases ha : (transition f.state f.limit (kind c)).2 = .reset
  · rw [ha] at h
    cases h
    exact ⟨Nat.le_refl 1, fun hc => absurd ha (hk hc)⟩
  · have := act_total _ _ _ _ h ha
    exact ⟨by rw [this]; exact Nat.le_add_left 1 _, fun _ => this⟩

/-- All frames that are completed by octets, with the framer at the time of each; the framer is reset after each. -/
def digest : Framer → List Byte → Option (Framer × List Framer)
  | f, [] => some (f, [])
  | f, c :: r =>
    match turn f c with
    | none => none
    | some (g, true) => (digest (reset g) r).map fun x => (x.1, g :: x.2)
    | some (g, false) => digest g r

theorem digest_append (f : Framer) (x y : List Byte) : digest f (x ++ y) = (digest f x).bind fun a => (digest a.1 y).map fun b => (b.1, a.2 ++ b.2) := by
  induction x generalizing f with
  | nil =>
    simp only [List.nil_append, digest, Option.bind_some]
    cases digest f y with
    | none => rfl
    | some b => rfl
  | cons c x ih =>
    simp only [List.cons_append, digest]
    split
    · rfl
    · rename_i g _
      rw [ih (reset g)]
      cases digest (reset g) x with
      | none => rfl
      | some a =>
        simp only [Option.bind_some, Option.map_some]
        cases digest a.1 y with
        | none => rfl
        | some b => rfl
    · rename_i g _
      exact ih g

/-- A call takes the octets up to the end of the first frame. -/
theorem pull_digest (f : Framer) (b : List Byte) : (∀ g rest, pull f b = some (g, true, rest) → ∃ taken, b = taken ++ rest ∧ taken ≠ [] ∧ digest f taken = some (reset g, [g])) ∧
    (∀ g rest, pull f b = some (g, false, rest) → rest = [] ∧ digest f b = some (g, [])) ∧ (pull f b = none → digest f b = none) := by
  induction b generalizing f with
  | nil =>
    refine ⟨fun g rest h => by simp [pull] at h, fun g rest h => ?_, fun h => by simp [pull] at h⟩
    simp only [pull, Option.some.injEq, Prod.mk.injEq] at h
    exact ⟨h.2.2.symm, by rw [digest, h.1]⟩
  | cons c b ih =>
    rcases ht : turn f c with _ | ⟨x, t⟩
    · refine ⟨fun g rest h => ?_, fun g rest h => ?_, fun _ => ?_⟩
      · rw [pull, ht] at h; cases h
      · rw [pull, ht] at h; cases h
      · rw [digest, ht]
    · cases t with
      | true =>
        refine ⟨fun g rest h => ?_, fun g rest h => ?_, fun h => ?_⟩
        · rw [pull, ht] at h
          simp only [Option.some.injEq, Prod.mk.injEq, true_and] at h
          obtain ⟨rfl, rfl⟩ := h
          refine ⟨[c], rfl, by simp, ?_⟩
          rw [digest, ht]
          rfl
        · rw [pull, ht] at h; simp at h
        · rw [pull, ht] at h; simp at h
      | false =>
        refine ⟨fun g rest h => ?_, fun g rest h => ?_, fun h => ?_⟩
        · rw [pull, ht] at h
          obtain ⟨taken, h1, h2, h3⟩ := (ih x).1 g rest h
          refine ⟨c :: taken, by rw [h1]; rfl, by simp, ?_⟩
          rw [digest, ht]
          exact h3
        · rw [pull, ht] at h
          obtain ⟨h1, h2⟩ := (ih x).2.1 g rest h
          refine ⟨h1, ?_⟩
          rw [digest, ht]
          exact h2
        · rw [pull, ht] at h
          rw [digest, ht]
          exact (ih x).2.2 h

theorem turn_generated (f : Framer) (n : BitVec 16) (c : Byte) :
    turn { f with generated := n } c = (turn f c).map (fun g => ({ g.1 with generated := n }, g.2)) := by
  unfold turn
  rw [machineByte_generated]
  cases machineByte f c with
  | none => rfl
  | some g =>
    simp only [Option.map_some]
    cases hg : g.state <;> simp only [] <;> first | rfl | (simp only [hg]) | (split <;> simp [hg, reset])

theorem turn_unstuck (f g : Framer) (c : Byte) (hm : machineByte f c = some g) (hs : ¬ Stuck g.state) : turn f c = some (g, false) := by
  unfold turn
  rw [hm, Option.map_some]
  unfold Stuck at hs
  revert hs
  cases g.state <;> simp

/-- Octets that leave the receiver unstuck. -/
theorem digest_through (f g : Framer) (w : List Byte) (h : feed f w = some g) (hs : ¬ Stuck g.state) : digest f w = some (g, []) := by
  induction w generalizing f with
  | nil => cases h; rfl
  | cons c w ih =>
    rw [feed, Option.bind_eq_some_iff] at h
    obtain ⟨x, hx, hw⟩ := h
    have hxs : ¬ Stuck x.state := by
      intro hst
      obtain ⟨n, t, hr⟩ := feed_stuck x hst w
      rw [hw] at hr
      cases hr
      exact hs hst
    rw [digest, turn_unstuck f x c hx hxs]
    exact ih x hw

theorem feed_total (f g : Framer) (w : List Byte) (h : feed f w = some g) (hw : 0x7e#8 ∉ w) : g.total = f.total + w.length := by
  induction w generalizing f with
  | nil => cases h; rfl
  | cons c w ih =>
    rw [feed, Option.bind_eq_some_iff] at h
    obtain ⟨x, hx, hw'⟩ := h
    simp only [List.mem_cons, not_or] at hw
    have hc : kind c ≠ .flag := by
      intro h
      rcases kind_cases c with ⟨_, hk⟩ | ⟨hk, _⟩ | ⟨_, hk⟩ | hk | hk
      · rw [hk] at h; cases h
      · exact hw.1 hk.symm
      · rw [hk] at h; cases h
      · rw [hk] at h; cases h
      · rw [hk] at h; cases h
    rw [ih x hw' hw.2, (machineByte_total f x c hx).2 hc, List.length_cons]
    omega

/-- A whole frame that is not empty and fits. -/
theorem digest_frame (f : Framer) (hb : f.size ≤ f.buffer.length) (hs : f.state = .reset) (wire payload : List Byte) (seq : BitVec 16) (hf : IsFrame wire payload seq)
    (hn : payload.length ≤ f.size) (hne : payload ≠ []) :
    ∃ g, digest f wire = some (reset g, [g]) ∧ g.state = .complete ∧ g.length = payload.length ∧ g.buffer.take payload.length = payload ∧ g.sequence = seq ∧ g.total = wire.length ∧
      g.size = f.size ∧ g.buffer.length = f.buffer.length ∧ g.generated = f.generated ∧ (payload.length < f.size → g.buffer[payload.length]? = some 0#8) := by
  have hclean := hf.clean
  rw [isFrame_iff] at hf
  obtain ⟨h16, body, k1, k2, k3, hk, rfl, hst⟩ := hf
  obtain ⟨g, h1, h2, h3, h4, _, h6, h7, h8, _, h10, h11, e, he, hes⟩ :=
    feed_frame f hb (Or.inl hs) body payload seq hn h16 hst k1 k2 k3 hk
  have h1' := h1
  rw [feed_append, he, Option.bind_some] at h1
  simp only [feed] at h1
  have hm : machineByte e NEWLINE = some g := by
    rw [Option.bind_eq_some_iff] at h1
    obtain ⟨x, hx, hxe⟩ := h1
    cases hxe
    exact hx
  obtain ⟨mid, hmid, hno, _⟩ := hclean
  refine ⟨g, ?_, h2, h7, h6, h8, ?_, h3, h4, h10, h11⟩
  · rw [digest_append, digest_through f e _ he (by simp [Stuck, hes])]
    have ht : turn e NEWLINE = some (g, true) := by
      unfold turn
      rw [hm, Option.map_some, h2]
      simp only []
      rw [if_neg (by rw [h7]; exact fun h => hne (List.eq_nil_of_length_eq_zero h))]
    simp [digest, ht]
  · rw [hmid, List.cons_append] at h1' ⊢
    rw [feed, Option.bind_eq_some_iff] at h1'
    obtain ⟨x, hx, hw⟩ := h1'
    have hflag : kind 0x7e#8 = .flag := by decide
    have hx1 : x.total = 1 := by
      unfold machineByte at hx
      rw [hflag, hs] at hx
      simp only [transition, act] at hx
      cases hx
      rfl
    rw [feed_total x g _ hw (by
      rw [List.mem_append, not_or]
      exact ⟨hno, by decide⟩), hx1, List.length_cons]
    omega

end Diminuto.Framer
