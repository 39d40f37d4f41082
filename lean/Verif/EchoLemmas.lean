import Verif.EchoSpec
import Verif.FdProps
import Verif.ShaperToolLemmas
import Verif.MetertoolLemmas

/-!
# Lemmas about how the tool for the Internet provides a stream
-/

namespace Diminuto.Echo

open Diminuto.Fd (Source Sink)
open Diminuto.ShaperTool (content Willing)

theorem toNat_ofInt {n : Nat} (h : n < 2 ^ 63) : (BitVec.ofInt 64 (n : Int)).toNat = n := by
  rw [BitVec.toNat_ofInt]
  omega

/-- A write that writes what it is to write. -/
theorem write_take (k : List Sink) (mem : List Byte) (n : Nat) (h0 : 0 < n) (hn : n ≤ mem.length) (h63 : n < 2 ^ 63) :
    Fd.write k mem (BitVec.ofInt 64 (n : Int)) ≠ .undefined ∧ ∀ p, Fd.write k mem (BitVec.ofInt 64 (n : Int)) = .done p → p.ret = n → p.out = mem.take n := by
  have ht := toNat_ofInt h63
  obtain ⟨h1, h2⟩ := Fd.fd_write_exact k mem (BitVec.ofInt 64 (n : Int)) (BitVec.ofInt 64 (n : Int)) (by omega) (by omega)
  refine ⟨h1, fun p hp hr => ?_⟩
  obtain ⟨_, ho, _, hret⟩ := h2 p hp
  rw [ho]
  split at hret
  · omega
  · congr 1; omega

/-- A write to a willing reader. -/
theorem write_polite (k : List Sink) (mem : List Byte) (n : Nat) (h0 : 0 < n) (hn : n ≤ mem.length) (h63 : n < 2 ^ 63) (hk : Willing k) :
    Fd.write k mem (BitVec.ofInt 64 (n : Int)) = .blocks ∨ ∃ p, Fd.write k mem (BitVec.ofInt 64 (n : Int)) = .done p ∧ p.ret = n ∧ Willing p.kernel := by
  have ht := toNat_ofInt h63
  unfold Fd.write Fd.writeGeneric
  rw [show (BitVec.ofInt 64 (n : Int)).toInt = (n : Int) by rw [BitVec.toInt_eq_toNat_of_lt (by omega), ht], ht]
  rcases ShaperTool.write_willing mem n k 0 n 0 hk (by omega) h0 (by omega) with h | ⟨p, h1, h2, _, h4⟩
  · exact Or.inl h
  · exact Or.inr ⟨p, h1, h2, h4⟩

/-- What a turn comes to. -/
structure Turned (block : BitVec 64) (c : Client) (r : List Byte × Client) : Prop where
  buffer : r.1.length = block.toNat
  fd : r.2.fd = c.fd
  closes : r.2.closes = c.closes
  says : (r.2.opened = false ∧ content c.input = [] ∧ r.2.said = c.said) ∨
    (r.2.opened = c.opened ∧ ∃ bs, bs ≠ [] ∧ bs.length ≤ block.toNat ∧ content c.input = bs ++ content r.2.input ∧ r.2.said = c.said ++ bs)
  polite : Polite c → Polite r.2

theorem turn_turned (block : BitVec 64) (h0 : 0 < block.toNat) (h63 : block.toNat < 2 ^ 63) (buffer : List Byte) (hb : buffer.length = block.toNat) (c : Client) :
    match turn block buffer c with
    | .running r => Turned block c r
    | .exits _ => False
    | .panics => ¬ Polite c
    | .blocks => True
    | .undefined => False := by
  unfold turn Fd.read
  cases hin : c.input with
  | nil => rw [ShaperTool.read_none buffer block h0]; trivial
  | cons e k =>
    obtain ⟨g, hg, hcase⟩ := ShaperTool.read_one e k buffer block h0 (by omega)
    have herr := Metertool.read_errors e k buffer block h0 (by omega) g hg
    rw [hg]
    simp only []
    rcases hcase with ⟨hr, hm, hc⟩ | ⟨hr, hm, hc⟩ | ⟨bs, hne, hle, hr, htake, hlen, hc⟩
    · rw [if_neg (by omega), if_pos hr]
      cases hcl : c.closes with
      | false => rw [if_neg (by simp)]; exact fun h => absurd h.closes (by rw [hcl]; simp)
      | true =>
        rw [if_pos rfl]
        exact ⟨by rw [hm]; exact hb, rfl, hcl.symm ▸ rfl, Or.inl ⟨rfl, by rw [hin]; exact hc, rfl⟩, fun h => ⟨fun he => h.input (by rw [hin]; exact herr.1 he), h.output, rfl⟩⟩
    · rw [if_pos (by omega)]
      intro h
      exact h.input (by rw [hin, herr.2 (by omega)]; exact List.mem_cons_self ..)
    · have hpos : 0 < bs.length := List.length_pos_iff.mpr hne
      rw [if_neg (by omega), if_neg (by omega), hr]
      have hml : bs.length ≤ g.mem.length := by omega
      obtain ⟨hu, ho⟩ := write_take c.output g.mem bs.length hpos hml (by omega)
      cases hw : Fd.write c.output g.mem (BitVec.ofInt 64 (bs.length : Int)) with
      | undefined => exact absurd hw hu
      | blocks => trivial
      | done p =>
        simp only []
        by_cases hp : p.ret = (bs.length : Int)
        · rw [if_pos hp]
          refine ⟨by show g.mem.length = _; omega, rfl, rfl, Or.inr ⟨rfl, bs, hne, hle, by rw [hin]; exact hc, ?_⟩, ?_⟩
          · show c.said ++ p.out = _; rw [ho p hw hp, htake]
          · intro h
            refine ⟨fun he => h.input (by rw [hin]; exact herr.1 he), ?_, h.closes⟩
            rcases write_polite c.output g.mem bs.length hpos hml (by omega) h.output with hx | ⟨q, hq, _, hk⟩
            · rw [hx] at hw; exact (nomatch hw)
            · rw [hq] at hw; cases hw; exact hk
        · rw [if_neg hp]
          intro h
          rcases write_polite c.output g.mem bs.length hpos hml (by omega) h.output with hx | ⟨q, hq, hr', _⟩
          · rw [hx] at hw; exact (nomatch hw)
          · rw [hq] at hw; cases hw; exact hp hr'

/-- What serving one of some connections comes to. -/
theorem serve_one (block : BitVec 64) (h0 : 0 < block.toNat) (h63 : block.toNat < 2 ^ 63) (fd : Nat) (buffer : List Byte) (hb : buffer.length = block.toNat) (cs : List Client) :
    match serve block fd buffer cs with
    | .running r => r.1.length = block.toNat ∧ ((registered cs fd = false ∧ r.2 = cs) ∨
        ∃ i c d, cs[i]? = some c ∧ c.opened = true ∧ c.fd = fd ∧ r.2 = cs.set i d ∧ Turned block c (r.1, d))
    | .exits _ => False
    | .panics => ∃ c ∈ cs, ¬ Polite c
    | .blocks => True
    | .undefined => False := by
  induction cs with
  | nil => exact ⟨hb, Or.inl ⟨rfl, rfl⟩⟩
  | cons c cs ih =>
    unfold serve
    cases hc : (c.opened && c.fd == fd) with
    | true =>
      rw [if_pos rfl]
      have ht := turn_turned block h0 h63 buffer hb c
      cases hr : turn block buffer c with
      | exits r => rw [hr] at ht; exact ht
      | running r =>
        rw [hr] at ht
        simp only [Bool.and_eq_true, beq_iff_eq] at hc
        exact ⟨ht.buffer, Or.inr ⟨0, c, r.2, rfl, hc.1, hc.2, rfl, ht⟩⟩
      | panics => rw [hr] at ht; exact ⟨c, List.mem_cons_self .., ht⟩
      | blocks => trivial
      | undefined => rw [hr] at ht; exact ht
    | false =>
      rw [if_neg (by simp)]
      cases hr : serve block fd buffer cs with
      | exits r => rw [hr] at ih; exact ih
      | running r =>
        rw [hr] at ih
        obtain ⟨h1, h2⟩ := ih
        refine ⟨h1, ?_⟩
        rcases h2 with ⟨hn, he⟩ | ⟨i, c1, d, hi, ho, hf, hs, ht⟩
        · left
          refine ⟨?_, ?_⟩
          · unfold registered at hn ⊢
            rw [List.any_cons, hc, hn]
            rfl
          · show c :: r.2 = _; rw [he]
        · right
          exact ⟨i + 1, c1, d, hi, ho, hf, by show c :: r.2 = c :: cs.set i d; rw [hs], ht⟩
      | panics => rw [hr] at ih; obtain ⟨d, hd, hp⟩ := ih; exact ⟨d, List.mem_cons_of_mem _ hd, hp⟩
      | blocks => trivial
      | undefined => rw [hr] at ih; exact ih

/-! ## Two lists -/

theorem Each.snoc {α β : Type} {R : α → β → Prop} {l : List α} {m : List β} {a : α} {b : β} (h : Each R l m) (hab : R a b) : Each R (l ++ [a]) (m ++ [b]) := by
  induction h with
  | nil => exact .cons hab .nil
  | cons h _ ih => exact .cons h ih

theorem Each.set {α β : Type} {R : α → β → Prop} {l : List α} {m : List β} (h : Each R l m) : ∀ (i : Nat) (b d : β), m[i]? = some b → (∀ a, R a b → R a d) → Each R l (m.set i d) := by
  induction h with
  | nil => intro i b d hi; simp at hi
  | @cons a' b' l' m' h t ih =>
    intro i b d hi hr
    cases i with
    | zero => simp at hi; subst hi; exact .cons (hr _ h) t
    | succ i => exact .cons h (ih i b d (by simpa using hi) hr)

theorem Each.imp_mem {α β : Type} {R : α → β → Prop} {l : List α} {m : List β} (h : Each R l m) {b : β} (hb : b ∈ m) : ∃ a ∈ l, R a b := by
  induction h with
  | nil => exact (nomatch hb)
  | @cons a' b' l' m' h t ih =>
    rcases List.mem_cons.mp hb with rfl | hb
    · exact ⟨a', List.mem_cons_self .., h⟩
    · obtain ⟨a, ha, hr⟩ := ih hb; exact ⟨a, List.mem_cons_of_mem _ ha, hr⟩

/-! ## The run -/

/-- A connection as it is, of one as it was. -/
structure Kept (a c : Client) : Prop where
  echoed : Echoed a c
  polite : Polite a → Polite c

theorem Kept.turned {block : BitVec 64} {a c d : Client} {b : List Byte} (h : Kept a c) (ho : c.opened = true) (ht : Turned block c (b, d)) : Kept a d := by
  refine ⟨⟨ht.fd.trans h.echoed.fd, fun hd => ?_, fun hd => ?_⟩, fun hp => ht.polite (h.polite hp)⟩
  · rcases ht.says with ⟨h1, _⟩ | ⟨_, bs, _, _, h2, h3⟩
    · rw [hd] at h1; exact (nomatch h1)
    · rw [h.echoed.opened ho, h2, show d.said = c.said ++ bs from h3, List.append_assoc]
  · rcases ht.says with ⟨_, h2, h3⟩ | ⟨h1, _⟩
    · rw [show d.said = c.said from h3, h.echoed.opened ho, h2, List.append_nil]
    · rw [show d.opened = c.opened from h1, ho] at hd; exact (nomatch hd)

/-- The state is what has become of some connections. -/
structure Good (block : BitVec 64) (as : List Client) (s : State) : Prop where
  buffer : s.buffer.length = block.toNat
  kept : Each Kept as s.clients

theorem serves_good (block : BitVec 64) (h0 : 0 < block.toNat) (h63 : block.toNat < 2 ^ 63) (as : List Client) (fds : List Nat) : ∀ s, Good block as s →
    match serves block fds s with
    | .running t => Good block as t
    | .exits _ => False
    | .panics => ∃ a ∈ as, ¬ Polite a
    | .blocks => True
    | .undefined => False := by
  induction fds with
  | nil => intro s h; exact h
  | cons fd fds ih =>
    intro s h
    unfold serves
    have hs := serve_one block h0 h63 fd s.buffer h.buffer s.clients
    cases hr : serve block fd s.buffer s.clients with
    | exits r => rw [hr] at hs; exact hs
    | running r =>
      rw [hr] at hs
      obtain ⟨h1, h2⟩ := hs
      refine ih ⟨r.1, r.2⟩ ⟨h1, ?_⟩
      show Each Kept as r.2
      rcases h2 with ⟨_, he⟩ | ⟨i, c, d, hi, ho, _, he, ht⟩
      · rw [he]; exact h.kept
      · rw [he]; exact h.kept.set i c d hi fun a ha => ha.turned ho ht
    | panics =>
      rw [hr] at hs
      obtain ⟨c, hc, hp⟩ := hs
      obtain ⟨a, ha, hk⟩ := h.kept.imp_mem hc
      exact ⟨a, ha, fun h => hp (hk.polite h)⟩
    | blocks => trivial
    | undefined => rw [hr] at hs; exact hs

/-- The connection of a round. -/
def new (r : Round) : List Client :=
  match r.accept with
  | some (.client c _) => [c]
  | _ => []

theorem arrived_cons (r : Round) (rs : List Round) : arrived (r :: rs) = new r ++ arrived rs := by
  unfold arrived new
  rw [List.filterMap_cons]
  cases r.accept with
  | none => rfl
  | some a => cases a <;> rfl

/-- A round in which accepting goes well. -/
structure Fresh (as : List Client) (r : Round) : Prop where
  fails : r.accept ≠ some .fails
  named : ∀ c, r.accept ≠ some (.client c false)
  small : ∀ c ∈ new r, c.fd < 1024
  apart : ∀ c ∈ new r, ∀ a ∈ as, a.fd ≠ c.fd

theorem accept_good (block : BitVec 64) (as : List Client) (r : Round) (s : State) (h : Good block as s) :
    match accept r.accept s with
    | .running t => Good block (as ++ new r) t ∧ ∀ c ∈ new r, c.fd < 1024
    | .exits _ => False
    | .panics => ¬ Fresh as r
    | .blocks => False
    | .undefined => False := by
  unfold accept
  cases ha : r.accept with
  | none => exact ⟨by unfold new; rw [ha]; simpa using h, by unfold new; rw [ha]; exact fun _ h => (nomatch h)⟩
  | some a =>
    cases a with
    | again => exact ⟨by unfold new; rw [ha]; simpa using h, by unfold new; rw [ha]; exact fun _ h => (nomatch h)⟩
    | fails => exact fun hf => hf.fails ha
    | client c named =>
      have hnew : new r = [c] := by unfold new; rw [ha]
      simp only []
      cases named with
      | false => rw [if_pos (by simp)]; exact fun hf => hf.named c ha
      | true =>
        rw [if_neg (by simp)]
        by_cases hfd : c.fd ≥ Mux.FD_SETSIZE
        · rw [if_pos hfd]
          intro hf
          have := hf.small c (by rw [hnew]; exact List.mem_cons_self ..)
          unfold Mux.FD_SETSIZE at hfd
          omega
        · rw [if_neg hfd]
          cases hreg : registered s.clients c.fd with
          | true =>
            rw [if_pos rfl]
            intro hf
            unfold registered at hreg
            obtain ⟨d, hd, hx⟩ := List.any_eq_true.mp hreg
            simp only [Bool.and_eq_true, beq_iff_eq] at hx
            obtain ⟨a, ha', hk⟩ := h.kept.imp_mem hd
            exact hf.apart c (by rw [hnew]; exact List.mem_cons_self ..) a ha' (by rw [← hk.echoed.fd, hx.2])
          | false =>
            rw [if_neg (by simp), hnew]
            refine ⟨⟨h.buffer, h.kept.snoc ⟨⟨rfl, fun _ => rfl, fun h => (nomatch h)⟩, fun hp => ⟨hp.input, hp.output, hp.closes⟩⟩⟩, ?_⟩
            intro d hd
            rw [List.mem_singleton.mp hd]
            unfold Mux.FD_SETSIZE at hfd
            omega

theorem provide_good (block : BitVec 64) (h0 : 0 < block.toNat) (h63 : block.toNat < 2 ^ 63) (rs : List Round) : ∀ (as : List Client) (s : State), Good block as s →
    match provide block rs s with
    | .running t => Good block (as ++ arrived rs) t
    | .exits _ => False
    | .panics => (∃ a ∈ as ++ arrived rs, ¬ Polite a) ∨ ¬ (Accepts rs ∧ ∀ c ∈ arrived rs, ∀ a ∈ as, a.fd ≠ c.fd)
    | .blocks => True
    | .undefined => False := by
  induction rs with
  | nil => intro as s h; unfold provide arrived; simpa using h
  | cons r rs ih =>
    intro as s h
    unfold provide round
    have ha := accept_good block as r s h
    cases hr : accept r.accept s with
    | exits t => rw [hr] at ha; exact ha
    | blocks => rw [hr] at ha; exact ha.elim
    | undefined => rw [hr] at ha; exact ha
    | panics =>
      rw [hr] at ha
      refine Or.inr fun hacc => ha ⟨hacc.1.fails r (List.mem_cons_self ..), hacc.1.named r (List.mem_cons_self ..), fun c hc => hacc.1.small c ?_, fun c hc a ha' => hacc.2 c ?_ a ha'⟩
      · rw [arrived_cons]; exact List.mem_append_left _ hc
      · rw [arrived_cons]; exact List.mem_append_left _ hc
    | running t =>
      rw [hr] at ha
      have hs := serves_good block h0 h63 (as ++ new r) (r.ready.filter (registered s.clients)) t ha.1
      show match ((serves block (r.ready.filter (registered s.clients)) t).and (provide block rs)) with
        | .running t => Good block (as ++ arrived (r :: rs)) t
        | .exits _ => False
        | .panics => (∃ a ∈ as ++ arrived (r :: rs), ¬ Polite a) ∨ ¬ (Accepts (r :: rs) ∧ ∀ c ∈ arrived (r :: rs), ∀ a ∈ as, a.fd ≠ c.fd)
        | .blocks => True
        | .undefined => False
      have hlist : as ++ arrived (r :: rs) = (as ++ new r) ++ arrived rs := by rw [arrived_cons, List.append_assoc]
      cases hq : serves block (r.ready.filter (registered s.clients)) t with
      | exits u => rw [hq] at hs; exact hs
      | blocks => trivial
      | undefined => rw [hq] at hs; exact hs
      | panics =>
        rw [hq] at hs
        obtain ⟨a, ha', hp⟩ := hs
        left
        exact ⟨a, by rw [hlist]; exact List.mem_append_left _ ha', hp⟩
      | running u =>
        rw [hq] at hs
        have hi := ih (as ++ new r) u hs
        show match provide block rs u with
          | .running t => Good block (as ++ arrived (r :: rs)) t
          | .exits _ => False
          | .panics => (∃ a ∈ as ++ arrived (r :: rs), ¬ Polite a) ∨ ¬ (Accepts (r :: rs) ∧ ∀ c ∈ arrived (r :: rs), ∀ a ∈ as, a.fd ≠ c.fd)
          | .blocks => True
          | .undefined => False
        cases hp : provide block rs u with
        | exits v => rw [hp] at hi; exact hi
        | blocks => trivial
        | undefined => rw [hp] at hi; exact hi
        | running v => rw [hp] at hi; show Good block _ v; rw [hlist]; exact hi
        | panics =>
          rw [hp] at hi
          show _ ∨ _
          rw [hlist]
          refine hi.imp_right fun hn hacc => hn ⟨⟨fun x hx => hacc.1.fails x (List.mem_cons_of_mem _ hx), fun x hx => hacc.1.named x (List.mem_cons_of_mem _ hx), fun c hc => hacc.1.small c ?_, ?_⟩, fun c hc a ha' => ?_⟩
          · rw [arrived_cons]; exact List.mem_append_right _ hc
          · have := hacc.1.apart
            rw [arrived_cons, List.map_append, List.nodup_append] at this
            exact this.2.1
          · rcases List.mem_append.mp ha' with h1 | h1
            · exact hacc.2 c (by rw [arrived_cons]; exact List.mem_append_right _ hc) a h1
            · have := hacc.1.apart
              rw [arrived_cons, List.map_append, List.nodup_append] at this
              exact this.2.2 _ (List.mem_map.mpr ⟨a, h1, rfl⟩) _ (List.mem_map.mpr ⟨c, hc, rfl⟩)

end Diminuto.Echo
