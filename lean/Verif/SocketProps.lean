import Verif.SocketLemmas

/-!
# Properties of the functions that make sockets

Each theorem says, for all system calls that do what they should or fail: either a new descriptor is returned, of a socket bound to the address and the interface that were given
and listening or connected as it should be; or something negative is returned, and no socket has been left open and no other one has been closed.  If no call fails, the former is the
case.
-/

namespace Diminuto.Socket

variable {σ : Type}

section
variable {w : World σ} {table : σ → Int → Option Sock} {paths : σ → List Byte → Prop} (hw : Honest w table paths) {f : Option (Int → σ → Int × σ)}
  (hf : Decent table paths f)
include hw hf

/-! ## IPv4 -/

/-- The full claim is for all interfaces; names of more than 15 characters are cut. -/
theorem socket_provider4_partial (a : BitVec 32) (port : BitVec 16) (i : Option (List Byte)) (hi : ∀ n, i = some n → n.length ≤ 15) (b : Int) (s : σ) :
    (Reliable w table f → 0 ≤ (provider4 w a port i b f s).1) ∧
    (Made table paths s (provider4 w a port i b f s) (fun k => ∃ n, Backlog b n ∧
        k = { domain := .inet, style := .stream, bound := some (.inet a port), device := i.getD [], backlog := some n, peer := none }) (fun _ => False) ∨
      Undone table paths s (provider4 w a port i b f s)) := by
  refine whole_undone hw (fs := fun fd => [inject f fd, source4 w fd a port, setInterface w fd i, w.listen fd (if b < 0 then INTMAX else b)])
    (fun fd hfd => Chain.quiet (step_inject hf hfd { domain := .inet, style := .stream }) (Chain.quiet (step_source4 hw _ a port) (Chain.quiet (step_interface hw hfd _ i hi (by rfl)) (Chain.quiet (step_listen hw _ _) Chain.nil))))
    ?_ s _ ?_ _ ?_ _ rfl
  · intro p; simp
  · refine ⟨_, ?_, rfl⟩
    unfold Backlog INTMAX
    constructor <;> intros <;> split <;> omega
  · intro p; simp

theorem socket_consumer4_partial (a : BitVec 32) (port : BitVec 16) (a0 : BitVec 32) (port0 : BitVec 16) (i : Option (List Byte)) (hi : ∀ n, i = some n → n.length ≤ 15) (s : σ) :
    (Reliable w table f → 0 ≤ (consumer4 w a port a0 port0 i f s).1) ∧
    (Made table paths s (consumer4 w a port a0 port0 i f s) (fun k =>
        k = { domain := .inet, style := .stream, bound := some (.inet a0 port0), device := i.getD [], backlog := none, peer := some (.inet a port) }) (fun _ => False) ∨
      Undone table paths s (consumer4 w a port a0 port0 i f s)) := by
  refine whole_undone hw (fs := fun fd => [inject f fd, source4 w fd a0 port0, setInterface w fd i, w.connect fd (.inet a port)])
    (fun fd hfd => Chain.quiet (step_inject hf hfd { domain := .inet, style := .stream }) (Chain.quiet (step_source4 hw _ a0 port0) (Chain.quiet (step_interface hw hfd _ i hi (by rfl)) (Chain.quiet (step_connect hw _ _) Chain.nil))))
    ?_ s _ ?_ _ ?_ _ rfl
  · intro p; simp
  · rfl
  · intro p; simp

theorem socket_peer4_partial (a : BitVec 32) (port : BitVec 16) (i : Option (List Byte)) (hi : ∀ n, i = some n → n.length ≤ 15) (s : σ) :
    (Reliable w table f → 0 ≤ (peer4 w a port i f s).1) ∧
    (Made table paths s (peer4 w a port i f s) (fun k =>
        k = { domain := .inet, style := .dgram, bound := some (.inet a port), device := i.getD [], backlog := none, peer := none }) (fun _ => False) ∨
      Undone table paths s (peer4 w a port i f s)) := by
  refine whole_undone hw (fs := fun fd => [inject f fd, source4 w fd a port, setInterface w fd i])
    (fun fd hfd => Chain.quiet (step_inject hf hfd { domain := .inet, style := .dgram }) (Chain.quiet (step_source4 hw _ a port) (Chain.quiet (step_interface hw hfd _ i hi (by rfl)) Chain.nil)))
    ?_ s _ ?_ _ ?_ _ rfl
  · intro p; simp
  · rfl
  · intro p; simp

/-! ## IPv6 -/

theorem socket_provider6_partial (a : BitVec 128) (port : BitVec 16) (i : Option (List Byte)) (hi : ∀ n, i = some n → n.length ≤ 15) (b : Int) (s : σ) :
    (Reliable w table f → 0 ≤ (provider6 w a port i b f s).1) ∧
    (Made table paths s (provider6 w a port i b f s) (fun k => ∃ n, Backlog b n ∧
        k = { domain := .inet6, style := .stream, bound := some (.inet6 a port), device := i.getD [], backlog := some n, peer := none }) (fun _ => False) ∨
      Undone table paths s (provider6 w a port i b f s)) := by
  refine whole_undone hw (fs := fun fd => [inject f fd, source6 w fd a port, setInterface w fd i, w.listen fd (limit b)])
    (fun fd hfd => Chain.quiet (step_inject hf hfd { domain := .inet6, style := .stream }) (Chain.quiet (step_source6 hw _ a port) (Chain.quiet (step_interface hw hfd _ i hi (by rfl)) (Chain.quiet (step_listen hw _ _) Chain.nil))))
    ?_ s _ ?_ _ ?_ _ rfl
  · intro p; simp
  · exact ⟨_, limit_backlog b, rfl⟩
  · intro p; simp

theorem socket_consumer6_partial (a : BitVec 128) (port : BitVec 16) (a0 : BitVec 128) (port0 : BitVec 16) (i : Option (List Byte)) (hi : ∀ n, i = some n → n.length ≤ 15) (s : σ) :
    (Reliable w table f → 0 ≤ (consumer6 w a port a0 port0 i f s).1) ∧
    (Made table paths s (consumer6 w a port a0 port0 i f s) (fun k =>
        k = { domain := .inet6, style := .stream, bound := some (.inet6 a0 port0), device := i.getD [], backlog := none, peer := some (.inet6 a port) }) (fun _ => False) ∨
      Undone table paths s (consumer6 w a port a0 port0 i f s)) := by
  refine whole_undone hw (fs := fun fd => [inject f fd, source6 w fd a0 port0, setInterface w fd i, w.connect fd (.inet6 a port)])
    (fun fd hfd => Chain.quiet (step_inject hf hfd { domain := .inet6, style := .stream }) (Chain.quiet (step_source6 hw _ a0 port0) (Chain.quiet (step_interface hw hfd _ i hi (by rfl)) (Chain.quiet (step_connect hw _ _) Chain.nil))))
    ?_ s _ ?_ _ ?_ _ rfl
  · intro p; simp
  · rfl
  · intro p; simp

theorem socket_peer6_partial (a : BitVec 128) (port : BitVec 16) (i : Option (List Byte)) (hi : ∀ n, i = some n → n.length ≤ 15) (s : σ) :
    (Reliable w table f → 0 ≤ (peer6 w a port i f s).1) ∧
    (Made table paths s (peer6 w a port i f s) (fun k =>
        k = { domain := .inet6, style := .dgram, bound := some (.inet6 a port), device := i.getD [], backlog := none, peer := none }) (fun _ => False) ∨
      Undone table paths s (peer6 w a port i f s)) := by
  refine whole_undone hw (fs := fun fd => [inject f fd, source6 w fd a port, setInterface w fd i])
    (fun fd hfd => Chain.quiet (step_inject hf hfd { domain := .inet6, style := .dgram }) (Chain.quiet (step_source6 hw _ a port) (Chain.quiet (step_interface hw hfd _ i hi (by rfl)) Chain.nil)))
    ?_ s _ ?_ _ ?_ _ rfl
  · intro p; simp
  · rfl
  · intro p; simp

/-! ## Local -/

/-- The full claim is that nothing is left after an error (`Undone`), and for all paths: but if listening fails, the path is left, and paths of more than 108 characters are cut. -/
theorem socket_providerl_partial (y : Style) (p : List Byte) (h0 : 0#8 ∉ p) (hlen : p.length ≤ 108) (b : Int) (s : σ) :
    (Reliable w table f → 0 ≤ (providerl w y (some p) b f s).1) ∧
    (Made table paths s (providerl w y (some p) b f s) (fun k => ∃ n a, Backlog b n ∧ Named p a ∧
        k = { domain := .unix, style := y, bound := a, device := [], backlog := some n, peer := none }) (At p) ∨
      Closed table paths s (providerl w y (some p) b f s) (At p)) := by
  obtain ⟨a, ha, hstep⟩ := step_source (f := f) hw p h0 hlen
  refine whole_closed hw (fs := fun fd => [inject f fd, sourcel w fd (some p), w.listen fd (limit b)])
    (k' := { domain := .unix, style := y, bound := a, device := [], backlog := some (limit b), peer := none })
    (fun fd hfd => Chain.quiet (step_inject hf hfd { domain := .unix, style := y }) (Chain.loud (hstep fd hfd _ rfl) (by simp) (Chain.quiet (step_listen hw _ _) Chain.nil)))
    s _ ⟨_, a, limit_backlog b, ha, rfl⟩ _ (fun _ => Iff.rfl) (fun _ h => h) _ rfl

/-- The same for a consumer, and if the paths of the consumer is empty, nothing is left. -/
theorem socket_consumerl_partial (y : Style) (p p0 : List Byte) (hp : p.length ≤ 108) (h0 : 0#8 ∉ p0) (hlen : p0.length ≤ 108) (s : σ) :
    ∃ r, consumerl w y (some p) (some p0) f s = some r ∧
    (Reliable w table f → 0 ≤ r.1) ∧
    (Made table paths s r (fun k => ∃ n a, p.length + n = 108 ∧ Named p0 a ∧
        k = { domain := .unix, style := y, bound := a, device := [], backlog := none, peer := some (.unix (p ++ List.replicate n 0#8)) }) (At p0) ∨
      Closed table paths s r (At p0)) := by
  obtain ⟨a, ha, hstep⟩ := step_source (f := f) hw p0 h0 hlen
  have e : Ipcl.address p = p ++ List.replicate (108 - p.length) 0#8 := by
    unfold Ipcl.address Ipcl.strncpy Ipcl.SUN
    rw [List.take_of_length_le hp]
  refine ⟨whole w .unix y (fun fd => [inject f fd, sourcel w fd (some p0), w.connect fd (.unix (Ipcl.address p))]) s, ?_, ?_⟩
  · unfold consumerl whole
    simp only [finish]
    split
    · rfl
    · split
      · rfl
      · split
        · rfl
        · split <;> rfl
  refine whole_closed hw
    (k' := { domain := .unix, style := y, bound := a, device := [], backlog := none, peer := some (.unix (Ipcl.address p)) })
    (fun fd hfd => Chain.quiet (step_inject hf hfd { domain := .unix, style := y }) (Chain.loud (hstep fd hfd _ rfl) (by simp) (Chain.quiet (step_connect hw _ _) Chain.nil)))
    s _ ⟨108 - p.length, a, by omega, ha, by rw [e]⟩ _ (fun _ => Iff.rfl) (fun _ h => h) _ rfl

/-- For datagrams nothing is left after an error. -/
theorem socket_peerl_partial (p : List Byte) (h0 : 0#8 ∉ p) (hlen : p.length ≤ 108) (s : σ) :
    (Reliable w table f → 0 ≤ (peerl w (some p) f s).1) ∧
    (Made table paths s (peerl w (some p) f s) (fun k => ∃ a, Named p a ∧
        k = { domain := .unix, style := .dgram, bound := a, device := [], backlog := none, peer := none }) (At p) ∨
      Undone table paths s (peerl w (some p) f s)) := by
  obtain ⟨a, ha, hstep⟩ := step_source (f := f) hw p h0 hlen
  refine whole_undone hw (fs := fun fd => [inject f fd, sourcel w fd (some p)])
    (k' := { domain := .unix, style := .dgram, bound := a, device := [], backlog := none, peer := none })
    (fun fd hfd => Chain.quiet (step_inject hf hfd { domain := .unix, style := .dgram }) (Chain.last (hstep fd hfd _ rfl)))
    (fun _ h => h) s _ ⟨a, ha, rfl⟩ _ (fun _ => Iff.rfl) _ rfl

end

/-! ## Examples and counterexamples -/

theorem table_lt {s : K} {fd : Int} {k : Sock} (h : s.table fd = some k) : 0 ≤ fd ∧ fd.toNat < s.socks.length := by
  unfold K.table at h
  split at h
  · next h0 =>
    refine ⟨h0, ?_⟩
    rcases Nat.lt_or_ge fd.toNat s.socks.length with hl | hl
    · exact hl
    · rw [List.getElem?_eq_none hl] at h
      cases h
  · cases h

theorem table_set (s : K) (fd : Int) (k : Sock) (h : s.table fd = some k) (v : Option Sock) (ps : List (List Byte)) :
    K.table { socks := s.socks.set fd.toNat v, paths := ps } = put s.table fd v := by
  obtain ⟨h0, hl⟩ := table_lt h
  funext x
  unfold put K.table
  simp only []
  by_cases hx : x = fd
  · subst hx
    rw [if_pos h0, if_pos rfl, List.getElem?_set, if_pos rfl, if_pos hl]
    cases v <;> rfl
  · rw [if_neg hx]
    split
    · next hx0 =>
      rw [List.getElem?_set_ne (by omega)]
    · rfl

theorem table_change (s : K) (fd : Int) (k : Sock) (h : s.table fd = some k) (f : Sock → Sock) (ps : List (List Byte)) :
    K.table { s.change fd f with paths := ps } = put s.table fd (some (f k)) := by
  unfold K.change
  rw [h]
  exact table_set s fd k h _ _

theorem table_append (s : K) (v : Sock) (ps : List (List Byte)) : K.table { socks := s.socks ++ [some v], paths := ps } = put s.table s.socks.length (some v) := by
  funext x
  unfold put K.table
  simp only []
  by_cases hx : x = (s.socks.length : Int)
  · subst hx
    rw [if_pos (by omega), if_pos rfl]
    simp
  · rw [if_neg hx]
    split
    · next h0 =>
      by_cases hl : x.toNat < s.socks.length
      · rw [List.getElem?_append_left hl]
      · rw [List.getElem?_eq_none (by simp only [List.length_append, List.length_singleton]; omega), List.getElem?_eq_none (by omega)]
    · rfl

theorem kernel_honest (c : Bool) : Honest (kernel c) K.table K.has where
  socket d y s := by
    refine Or.inr ⟨by simp [kernel], ?_, table_append s _ _, fun p => Iff.rfl⟩
    show s.table (s.socks.length : Int) = none
    unfold K.table
    rw [if_pos (by omega)]
    simp
  bind fd a s k h := by
    refine Or.inr ⟨by simp [kernel], table_change s fd k h _ _, fun p => ?_⟩
    cases a <;> simp [kernel, K.has, Addr.path, K.change, or_comm]
  device fd n s k h := Or.inr ⟨rfl, table_change s fd k h _ _, fun p => Iff.rfl⟩
  listen fd b s k h := Or.inr ⟨by simp [kernel], table_change s fd k h _ _, fun p => Iff.rfl⟩
  connect fd a s k h := by
    cases c with
    | false => exact Or.inl ⟨by simp [kernel], rfl, fun p => Iff.rfl⟩
    | true => exact Or.inr ⟨by simp [kernel], table_change s fd k h _ _, fun p => Iff.rfl⟩
  close fd s k h := ⟨table_set s fd k h none s.paths, fun p => Iff.rfl⟩

theorem kernel_reliable : Reliable (kernel true) K.table none where
  socket d y s := by simp [kernel]
  bind fd a s k h := by simp [kernel]
  device fd n s k h := rfl
  listen fd b s k h := by simp [kernel]
  connect fd a s k h := by simp [kernel]
  inject g h := by cases h

def empty : K := ⟨[], []⟩

example : Honest (kernel true) K.table K.has ∧ Decent K.table K.has none ∧ Reliable (kernel true) K.table none :=
  ⟨kernel_honest true, fun g h => (by cases h), kernel_reliable⟩

example : (provider4 (kernel true) 0x7f000001#32 80#16 (some [108#8, 111#8]) (-1) none empty).1 = 0 := by decide
example : (provider4 (kernel true) 0x7f000001#32 80#16 (some [108#8, 111#8]) (-1) none empty).2.socks =
    [some { domain := .inet, style := .stream, bound := some (.inet 0x7f000001#32 80#16), device := [108#8, 111#8], backlog := some 2147483647, peer := none }] := by decide

def me : List Byte := [47#8, 109#8, 101#8]
def you : List Byte := [47#8, 121#8, 111#8, 117#8]

/-- If the connection fails, the path that the consumer was bound to is left in the file system (so that trying again fails in `bind(2)`). -/
theorem socket_left_counterexample : ¬ ∀ (c : Bool) (s : K) (p p0 : List Byte), p.length ≤ 108 → 0#8 ∉ p0 → p0.length ≤ 108 →
    ∃ r, consumerl (kernel c) .stream (some p) (some p0) none s = some r ∧ (r.1 < 0 → Undone K.table K.has s r) := by
  intro h
  obtain ⟨r, h1, h2⟩ := h false empty you me (by decide) (by decide) (by decide)
  have e : r.1 < 0 ∧ me ∈ r.2.paths := by
    have : (consumerl (kernel false) .stream (some you) (some me) none empty).map (fun r => (r.1, r.2.paths)) = some (-1, [me]) := by decide +kernel
    rw [h1] at this
    simp only [Option.map_some, Option.some.injEq, Prod.mk.injEq] at this
    rw [this.1, this.2]
    decide
  have := ((h2 e.1).2.2 me).1 e.2
  revert this
  unfold K.has empty
  decide

/-- A null pointer for the path of the provider is undefined behaviour, even though one for the path of the consumer is an error. -/
theorem socket_null_counterexample (w : World σ) (y : Style) (p0 : Option (List Byte)) (f : Option (Int → σ → Int × σ)) (s : σ) : consumerl w y none p0 f s = none := rfl

/-- A null pointer for the path that is to be bound is an error, and all is as before. -/
theorem socket_local_null {w : World σ} {table : σ → Int → Option Sock} {paths : σ → List Byte → Prop} (hw : Honest w table paths) {f : Option (Int → σ → Int × σ)}
    (hf : Decent table paths f) (y : Style) (b : Int) (p : List Byte) (s : σ) :
    Undone table paths s (providerl w y none b f s) ∧ Undone table paths s (peerl w none f s) ∧ ∃ r, consumerl w y (some p) none f s = some r ∧ Undone table paths s r := by
  have main : ∀ (y : Style) (fs : Int → List (σ → Int × σ)), Undone table paths s (whole w .unix y (fun fd => inject f fd :: sourcel w fd none :: fs fd) s) := by
    intro y fs
    unfold whole
    rcases hr : w.socket .unix y s with ⟨fd, s1⟩
    have hsock := hw.socket .unix y s
    rw [hr] at hsock
    simp only [] at hsock ⊢
    rcases hsock with ⟨hneg, ht, hp⟩ | ⟨hpos, hfree, ht, hp⟩
    · rw [if_pos hneg]; exact ⟨hneg, ht, hp⟩
    · rw [if_neg (by omega)]
      have hopen : table s1 fd = some { domain := .unix, style := y } := by rw [ht, put_self]
      obtain ⟨-, hi⟩ := step_inject (w := w) hf hpos _ s1 hopen
      unfold finish
      rcases hj : inject f fd s1 with ⟨rc, s2⟩
      rw [hj] at hi
      simp only [] at hi ⊢
      have h2 : table s2 = table s1 ∧ ∀ p, paths s2 p ↔ paths s1 p := by
        rcases hi with ⟨_, a, b⟩ | ⟨_, a, b⟩
        · exact ⟨a, b⟩
        · exact ⟨by rw [a]; exact (same_put hopen).symm, fun p => by rw [b p]; simp⟩
      obtain ⟨hcl, hcp⟩ := hw.close fd s2 _ (by rw [h2.1]; exact hopen)
      have hdone : table (w.close fd s2) = table s ∧ ∀ p, paths (w.close fd s2) p ↔ paths s p :=
        ⟨by rw [hcl, h2.1, ht]; exact put_none _ _ _ hfree, fun p => by rw [hcp p, h2.2 p, hp p]⟩
      split
      · next hneg => exact ⟨hneg, hdone⟩
      · unfold finish
        exact ⟨by show (-1 : Int) < 0; decide, hdone⟩
  refine ⟨main y (fun fd => [w.listen fd (limit b)]), main .dgram (fun _ => []), _, ?_, main y (fun fd => [w.connect fd (.unix (Ipcl.address p))])⟩
  unfold consumerl whole
  simp only [finish]
  split
  · rfl
  · split
    · rfl
    · split
      · rfl
      · split <;> rfl

/-- A name of an interface that is too long is cut, so that the socket may be bound to another interface. -/
theorem socket_interface_counterexample : ¬ ∀ (s : K) (n : List Byte), 0#8 ∉ n → ∃ k, (peer4 (kernel true) 0 0 (some n) none s).2.table (peer4 (kernel true) 0 0 (some n) none s).1 = some k ∧
    k.device = n := by
  intro h
  obtain ⟨k, h1, h2⟩ := h empty (List.replicate 16 65#8) (by decide)
  have : (peer4 (kernel true) 0 0 (some (List.replicate 16 65#8)) none empty).2.table (peer4 (kernel true) 0 0 (some (List.replicate 16 65#8)) none empty).1 =
    some { domain := .inet, style := .dgram, bound := some (.inet 0 0), device := List.replicate 15 65#8, backlog := none, peer := none } := by decide
  rw [this] at h1
  cases h1
  revert h2
  decide

end Diminuto.Socket
