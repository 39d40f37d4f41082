import Verif.Gram
import Verif.DatagramProps
import Verif.ScatterGatherProps

/-!
# Lemmas about records as datagrams
-/

namespace Diminuto.Gram

open ScatterGather (State enumerate vectorize gather scatter room MAXIMUM View Inv entry dataOf)
open Datagram (World Name Packet Errno name4 name6)

variable {N : Nat} {σ : Type}

theorem vector_sound (hN : N < 2 ^ 64) {s : State N} {v : View N} (hi : Inv s v) {r : Fin N} (hr : v.role r = .record) (hs : v.Sound r) : vector s r = some (some ((v.queue r).map (entry v.role))) := by
  unfold vector
  rw [ScatterGather.enumerate_inv hi hr, Option.bind_some, if_neg (fun hc => hc ((ScatterGather.sound_iff hN hi r).2 hs)), ScatterGather.vectorize_inv hN hi hr]

theorem vector_unsound (hN : N < 2 ^ 64) {s : State N} {v : View N} (hi : Inv s v) {r : Fin N} (hr : v.role r = .record) (hs : ¬ v.Sound r) : vector s r = some none := by
  unfold vector
  rw [ScatterGather.enumerate_inv hi hr, Option.bind_some, if_pos (fun hc => hs ((ScatterGather.sound_iff hN hi r).1 hc))]

theorem send_sound (hN : N < 2 ^ 64) {s : State N} {v : View N} (hi : Inv s v) {r : Fin N} (hr : v.role r = .record) (hs : v.Sound r) (w : World σ) (fd : Int) (dest : Option Name) (t : σ) :
    send w fd s r dest t = some (match w.sendto fd (v.content r) 0 dest t with
      | (.ok n, t) => ((n, false), t)
      | (.error _, t) => ((-1, true), t)) := by
  unfold send
  rw [vector_sound hN hi hr hs, Option.bind_some]
  simp only []
  rw [ScatterGather.gather_mem hi.mem _ (hi.roles.segments hr)]
  rfl

theorem room_content {s : State N} {v : View N} (hi : Inv s v) {r : Fin N} (hr : v.role r = .record) : room ((v.queue r).map (entry v.role)) = (v.content r).length := by
  rw [ScatterGather.room_mem hi.mem _ (hi.roles.segments hr)]
  rfl

/-- Nothing else is different: the content of another record. -/
theorem content_other {s : State N} {v : View N} (hi : Inv s v) {r r' : Fin N} (hne : r' ≠ r) (d : List Byte) : View.content { v with role := v.received r d } r' = v.content r' := by
  have h : ∀ l : List (Fin N), (∀ n ∈ l, n ∉ v.queue r) → l.flatMap (View.bytes { v with role := v.received r d }) = l.flatMap v.bytes := by
    intro l hl
    induction l with
    | nil => rfl
    | cons n l ih =>
      rw [List.flatMap_cons, List.flatMap_cons, ih (fun m hm => hl m (List.mem_cons_of_mem _ hm))]
      congr 1
      have hn := hl n List.mem_cons_self
      unfold View.bytes View.received
      simp only []
      cases hv : v.role n <;> simp [hn]
  exact h (v.queue r') (fun n hn hn' => hne (hi.holds.uniq hn hn'))

theorem receive_sound (hN : N < 2 ^ 64) {s : State N} {v : View N} (hi : Inv s v) {r : Fin N} (hr : v.role r = .record) (hs : v.Sound r) (w : World σ) (fd : Int) (t t' : σ) (k : Packet)
    (hk : w.recvfrom fd (v.content r).length 0 t = (.ok k, t')) : ∃ s', receive w fd s r t = some ((s', (k.total : Int), k.name, false), t') ∧ Inv s' { v with role := v.received r k.data } := by
  obtain ⟨s', h1, h2⟩ := (ScatterGather.input_inv hN hi hr 0 none).2.2 k.data hs
  refine ⟨s', ?_, h2⟩
  unfold ScatterGather.input at h1
  rw [ScatterGather.enumerate_inv hi hr, Option.bind_some, if_neg (fun hc => hc ((ScatterGather.sound_iff hN hi r).2 hs)), ScatterGather.vectorize_inv hN hi hr, Option.bind_some] at h1
  simp only [] at h1
  unfold receive
  rw [vector_sound hN hi hr hs, Option.bind_some]
  simp only []
  rw [room_content hi hr] at h1 ⊢
  rw [hk]
  simp only []
  cases hx : scatter s ((v.queue r).map (entry v.role)) (k.data.take (v.content r).length) with
  | none => rw [hx] at h1; cases h1
  | some x =>
    rw [hx] at h1
    rw [Option.map_some] at h1 ⊢
    rw [(Prod.mk.inj (Option.some.inj h1)).1]

theorem received_role {v : View N} {r r' : Fin N} (d : List Byte) (hr : v.role r' = .record) : v.received r d r' = .record := by
  unfold View.received
  rw [hr]

end Diminuto.Gram
