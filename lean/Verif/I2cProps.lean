import Verif.I2cLemmas

/-!
# Properties: I2C
-/

namespace Diminuto.I2c
open Pin (ascii)

variable {σ : Type}

/-- C98.  However the threads of a process are scheduled and cancelled, the operations that they have called happened one after the other, each as if there had been no other thread, in an order
that is that of the calls of every thread; every thread was told what the operation returned.  An operation in which the thread was cancelled has made some of its calls. -/
theorem i2c_serial {w : World σ} (hm : Minus w) (todo : Nat → List Op) (s : σ) (x : Sys σ) (hx : Steps w (start todo s) x) (hf : ∀ t, (x.threads t).running = none) :
    ∃ h, Serial w s h x.world ∧ (∀ t, (x.threads t).results = told t h) ∧ (∀ t, asked t h ++ (x.threads t).todo = todo t) := by
  obtain ⟨h, hi⟩ := inv_steps hm hx
  refine ⟨h, hi.free ?_, hi.told, fun t => ?_⟩
  · cases hh : x.holder with
    | none => rfl
    | some t => exact absurd (hf t) ((hi.holds t).mpr hh)
  · have := hi.asked t
    simpa [now, hf t] using this

/-- C98.  There is at most one operation in progress, it has made its calls without any other between them, and the mutex is held by its thread; when there is none the mutex is free. -/
theorem i2c_exclusive {w : World σ} (hm : Minus w) (todo : Nat → List Op) (s : σ) (x : Sys σ) (hx : Steps w (start todo s) x) :
    (∀ t, (x.threads t).running ≠ none ↔ x.holder = some t) ∧
    ∀ t op cs r, (x.threads t).running = some (op, cs, r) → ∃ h a, Serial w s h a ∧
      (cs = [] ∧ whole w op a = (r, x.world) ∨ ∃ pre, pre ++ cs = op.calls ∧ Part w op.fd ⟨-1, []⟩ a pre r x.world) := by
  obtain ⟨h, hi⟩ := inv_steps hm hx
  refine ⟨hi.holds, fun t op cs r ht => ?_⟩
  obtain ⟨a, h1, h2, h3⟩ := hi.busy t op cs r ht
  refine ⟨h, a, h1, ?_⟩
  rcases h3 with rfl | h3
  · left
    refine ⟨rfl, ?_⟩
    rw [whole_exec hm, ← h2]; rfl
  · exact Or.inr h3

/-- C98.  No operation waits for ever: if the mutex is held its thread can make a step, and as long as a thread that has not been cancelled has something to do, some thread can. -/
theorem i2c_progress {w : World σ} (hm : Minus w) (todo : Nat → List Op) (s : σ) (x : Sys σ) (hx : Steps w (start todo s) x) (t : Nat) (hc : (x.threads t).cancelled = false)
    (hd : (x.threads t).todo ≠ [] ∨ (x.threads t).running ≠ none) : ∃ y, Step w x y := by
  obtain ⟨h, hi⟩ := inv_steps hm hx
  have go : ∀ u, (x.threads u).running ≠ none → ∃ y, Step w x y := by
    intro u hu
    have hl := hi.live u hu
    rcases hth : x.threads u with ⟨td, rn, rs, cn⟩
    rw [hth] at hu hl
    simp only [] at hu hl
    subst hl
    match rn, hu with
    | some (op, [], r), _ => exact ⟨_, .unlock u td op r rs hth⟩
    | some (op, c :: cs, r), _ => exact ⟨_, .call u td op c cs r rs hth⟩
  cases hh : x.holder with
  | some u => exact go u ((hi.holds u).mpr hh)
  | none =>
    rcases hth : x.threads t with ⟨td, rn, rs, cn⟩
    have hr : (x.threads t).running = none := by
      cases hr : (x.threads t).running with
      | none => rfl
      | some z => have := (hi.holds t).mp (by rw [hr]; simp); rw [hh] at this; cases this
    rw [hth] at hd hc hr
    simp only [] at hd hc hr
    subst hc hr
    match td, hd with
    | [], hd => simp at hd
    | op :: rest, _ => exact ⟨_, .lock t op rest rs hth hh⟩

theorem bus_minus : Minus bus := by
  refine ⟨?_, ?_, ?_⟩
  · intro fd a s h; simp [bus] at h
  · intro fd d s h
    cases d with
    | nil => simp [bus] at h
    | cons p l => simp only [bus] at h; omega
  · intro fd n s h; simp only [bus] at h; omega

/-- Two threads, the second of which begins an operation while the first one is in one. -/
example : ∃ x, Steps bus (start (fun t => if t = 0 then [.get 3 0x39#8 7#8 2] else if t = 1 then [.send 3 0x40#8 [1#8]] else []) ⟨fun _ => 0, fun _ => 0, fun a r => a + r⟩) x ∧
    (x.threads 0).results = [⟨2, [0x40#8, 0x41#8]⟩] ∧ (x.threads 1).running ≠ none := by
  refine ⟨_, .step (.step (.step (.step (.step (.step .here (.lock 0 (.get 3 0x39#8 7#8 2) [] [] rfl rfl)) (.call 0 [] (.get 3 0x39#8 7#8 2) _ _ _ [] rfl)) (.call 0 [] (.get 3 0x39#8 7#8 2) _ _ _ [] rfl))
    (.call 0 [] (.get 3 0x39#8 7#8 2) _ _ _ [] rfl)) (.unlock 0 [] (.get 3 0x39#8 7#8 2) _ [] rfl)) (.lock 1 (.send 3 0x40#8 [1#8]) [] [] rfl rfl), ?_, ?_⟩
  · decide +kernel
  · simp [Sys.put]

theorem use_bus (fd : Int) (addr : BitVec 8) (b : Bus) : use bus fd addr b = (0, { b with inUse := fun f => if f = fd then addr else b.inUse f }) := rfl

theorem write_of {w : World σ} {fd : Int} {d : List Byte} {s s' : σ} {n : Int} (h : w.write fd d s = (n, s')) (h0 : 0 < n) (hn : n ≤ d.length) : write w fd d s = (n, s') := by
  simp only [write, h]
  rw [if_neg (by omega), if_neg (by omega), if_neg (by omega)]

theorem read_of {w : World σ} {fd : Int} {m : Nat} {s s' : σ} {n : Int} {l : List Byte} (h : w.read fd m s = (n, l, s')) (h0 : 0 < n) (hn : n ≤ m) : read w fd m s = (⟨n, l⟩, s') := by
  simp only [read, h]
  rw [if_neg (by omega), if_neg (by omega), if_neg (by omega)]

theorem get_of {w : World σ} {fd : Int} {addr reg : BitVec 8} {m : Nat} {s s1 s2 s3 : σ} {r1 r2 : Int} {r : Result} (h1 : use w fd addr s = (r1, s1)) (c1 : 0 ≤ r1) (h2 : write w fd [reg] s1 = (r2, s2)) (c2 : 0 ≤ r2)
    (h3 : read w fd m s2 = (r, s3)) : get w fd addr reg m s = (r, s3) := by
  simp only [get, h1, h2, h3]
  rw [if_neg (by omega), if_neg (by omega)]

theorem set_of {w : World σ} {fd : Int} {addr reg : BitVec 8} {d : List Byte} {s s1 s2 s3 : σ} {r1 r2 r : Int} (h1 : use w fd addr s = (r1, s1)) (c1 : 0 ≤ r1) (h2 : write w fd [reg] s1 = (r2, s2)) (c2 : 0 ≤ r2)
    (h3 : write w fd d s2 = (r, s3)) : set w fd addr reg d s = (⟨r, []⟩, s3) := by
  simp only [set, h1, h2, h3]
  rw [if_neg (by omega), if_neg (by omega)]

theorem send_of {w : World σ} {fd : Int} {addr : BitVec 8} {d : List Byte} {s s1 s3 : σ} {r1 r : Int} (h1 : use w fd addr s = (r1, s1)) (c1 : 0 ≤ r1)
    (h3 : write w fd d s1 = (r, s3)) : send w fd addr d s = (⟨r, []⟩, s3) := by
  simp only [send, h1, h3]
  rw [if_neg (by omega)]

theorem write_bus (fd : Int) (p : BitVec 8) (l : List Byte) (b : Bus) : write bus fd (p :: l) b = (((l.length + 1 : Nat) : Int), (bus.write fd (p :: l) b).2) :=
  write_of rfl (by omega) (by simp)

theorem read_bus (fd : Int) (n : Nat) (hn : 0 < n) (b : Bus) : read bus fd n b = (⟨n, content (b.regs (b.inUse fd)) (b.pointer (b.inUse fd)) n⟩, (bus.read fd n b).2.2) :=
  read_of rfl (by omega) (by omega)

/-- C99.  What is got is the content of the registers of the device, and no register of any device is changed; whatever device was in use before. -/
theorem i2c_get (fd : Int) (addr reg : BitVec 8) (n : Nat) (hn : 0 < n) (b : Bus) :
    ∃ b', get bus fd addr reg n b = (⟨n, content (b.regs addr) reg n⟩, b') ∧ b'.regs = b.regs := by
  have h := get_of (use_bus fd addr b) (by decide) (write_bus fd reg [] _) (by omega) (read_bus fd n hn _)
  refine ⟨_, h.trans (Prod.ext ?_ rfl), ?_⟩
  · simp [bus, stored]
  · funext a
    simp only [bus, stored, ite_self]

example : (get bus 3 0x39#8 254#8 4 ⟨fun _ => 0, fun _ => 0, fun a r => a + r⟩).1 = ⟨4, [0x37#8, 0x38#8, 0x39#8, 0x3a#8]⟩ := by decide +kernel

/-- C99.  What is sent, with the number of a register before it, is stored in the registers of the device, and no others are changed. -/
theorem i2c_send (fd : Int) (addr reg : BitVec 8) (data : List Byte) (b : Bus) :
    ∃ b', send bus fd addr (reg :: data) b = (⟨(data.length + 1 : Nat), []⟩, b') ∧ b'.regs addr = stored (b.regs addr) reg data ∧ ∀ a, a ≠ addr → b'.regs a = b.regs a := by
  refine ⟨_, send_of (use_bus fd addr b) (by decide) (write_bus ..), ?_, ?_⟩
  · simp [bus]
  · intro a ha; simp [bus, ha]

example : ((send bus 3 0x39#8 [7#8, 1#8, 2#8] ⟨fun _ => 0, fun _ => 0, fun _ _ => 0⟩).2.regs 0x39#8 8#8) = 2#8 := by decide +kernel

/-- C99.  To set a register of such a device does not set it: the number of the register and the data are two messages, so that the first byte of the data is the number of a register, and the
others are stored in registers that depend on it.  With one byte no register is changed at all, and success is reported. -/
theorem i2c_set_counterexample (fd : Int) (addr reg : BitVec 8) (value : Byte) (b : Bus) : ∃ b', set bus fd addr reg [value] b = (⟨1, []⟩, b') ∧ b'.regs = b.regs := by
  refine ⟨_, set_of (use_bus fd addr b) (by decide) (write_bus ..) (by omega) (write_bus ..), ?_⟩
  funext a
  simp only [bus, stored]
  split
  · split <;> rfl
  · split <;> rfl

/-- C99.  The messages of the operations are, for every device, those that are documented: the device is put to use, the number of the register is written, and then the data is read or written, as a
message of its own. -/
theorem i2c_messages (fd : Int) (addr reg : BitVec 8) (data : List Byte) (n : Nat) :
    (Op.get fd addr reg n).calls = [.use addr, .write [reg], .read n] ∧ (Op.set fd addr reg data).calls = [.use addr, .write [reg], .write data] ∧
    (Op.send fd addr data).calls = [.use addr, .write data] ∧
    (Op.getSet fd addr reg data).calls = [.use addr, .write [reg], .read data.length, .write data] ∧
    (Op.setGet fd addr reg data).calls = [.use addr, .write [reg], .write data, .read data.length] := ⟨rfl, rfl, rfl, rfl, rfl⟩

/-- C99.  No operation ever returns the zero that is documented for success. -/
theorem i2c_zero_counterexample (w : World σ) (op : Op) (s : σ) : (whole w op s).1.rc ≠ 0 := by
  have hr : ∀ fd n s, (read w fd n s).1.rc ≠ 0 := by
    intro fd n s
    simp only [read]
    split
    · omega
    · split
      · omega
      · split <;> omega
  have hw : ∀ fd d s, (write w fd d s).1 ≠ 0 := by
    intro fd n s
    simp only [write]
    split
    · omega
    · split
      · omega
      · split <;> omega
  cases op with
  | get fd addr reg size =>
    show (get w fd addr reg size s).1.rc ≠ 0
    unfold get
    split
    split
    · simp only []; omega
    · split
      split
      · simp only []; omega
      · exact hr _ _ _
  | set fd addr reg data =>
    show (set w fd addr reg data s).1.rc ≠ 0
    unfold set
    split
    split
    · simp only []; omega
    · split
      split
      · simp only []; omega
      · exact hw _ _ _
  | send fd addr data =>
    show (send w fd addr data s).1.rc ≠ 0
    unfold send
    split
    split
    · simp only []; omega
    · exact hw _ _ _
  | getSet fd addr reg data =>
    show (getSet w fd addr reg data s).1.rc ≠ 0
    unfold getSet
    split
    split
    · simp
    · split
      split
      · simp
      · split
        split
        · rename_i hc; simp only []; omega
        · exact hw _ _ _
  | setGet fd addr reg data =>
    show (setGet w fd addr reg data s).1.rc ≠ 0
    unfold setGet
    split
    split
    · simp
    · split
      split
      · simp
      · split
        split
        · simp only []; omega
        · exact hr _ _ _

/-- C99.  An operation succeeds exactly if all of its calls do, each of which has transferred at least one byte, and then it returns the number of bytes of the last one; otherwise it returns a
negative number, and no call is made after one that fails. -/
theorem i2c_succeeds {w : World σ} (hm : Minus w) (op : Op) (s s' : σ) (r : Result) (h : whole w op s = (r, s')) :
    (0 ≤ r.rc ↔ Part w op.fd ⟨-1, []⟩ s op.calls r s') ∧
    (r.rc < 0 → ∃ pre c post q t, op.calls = pre ++ c :: post ∧ Part w op.fd ⟨-1, []⟩ s pre q t ∧ perform w op.fd c q t = (r, s')) := by
  rw [whole_exec hm] at h
  have key : ∀ (cs pre : List Call) (q : Result) (t : σ), pre ++ cs = op.calls → Part w op.fd ⟨-1, []⟩ s pre q t → (cs = [] → 0 ≤ q.rc) → exec w op.fd cs q t = (r, s') →
      (0 ≤ r.rc → Part w op.fd ⟨-1, []⟩ s op.calls r s') ∧
      (r.rc < 0 → ∃ pre c post q t, op.calls = pre ++ c :: post ∧ Part w op.fd ⟨-1, []⟩ s pre q t ∧ perform w op.fd c q t = (r, s')) := by
    intro cs
    induction cs with
    | nil =>
      intro pre q t e hp h0 hx
      simp only [exec, Prod.mk.injEq] at hx
      obtain ⟨rfl, rfl⟩ := hx
      rw [← e, List.append_nil]
      exact ⟨fun _ => hp, fun hn => absurd (h0 rfl) (by omega)⟩
    | cons c cs ih =>
      intro pre q t e hp _ hx
      rw [exec] at hx
      by_cases hc : (perform w op.fd c q t).1.rc < 0
      · rw [if_pos hc] at hx
        rw [hx] at hc
        simp only [] at hc
        exact ⟨fun h => absurd hc (by omega), fun _ => ⟨pre, c, cs, q, t, e.symm, hp, hx⟩⟩
      · rw [if_neg hc] at hx
        exact ih (pre ++ [c]) (perform w op.fd c q t).1 (perform w op.fd c q t).2 (by simpa using e) (.more hp rfl (Int.not_lt.mp hc)) (fun _ => Int.not_lt.mp hc) hx
  have hne : op.calls ≠ [] := by cases op <;> simp [Op.calls]
  obtain ⟨k1, k2⟩ := key op.calls [] _ _ rfl .nil (fun h => absurd h hne) h
  refine ⟨⟨k1, fun hp => ?_⟩, k2⟩
  generalize hcs : op.calls = cs at hp hne
  cases hp with
  | nil => exact absurd rfl hne
  | more _ _ h => exact h

example : Part bus 3 ⟨-1, []⟩ ⟨fun _ => 0, fun _ => 0, fun _ _ => 0⟩ [.use 5#8] ⟨0, []⟩ ⟨fun f => if f = 3 then 5#8 else 0, fun _ => 0, fun _ _ => 0⟩ := .more .nil rfl (by decide)

/-- C99.  A transfer returns the number of bytes if the kernel has transferred at least one and not more than asked for, and a negative number otherwise; to put a device to use returns what
the kernel does. -/
theorem i2c_transfers (w : World σ) (fd : Int) (addr : BitVec 8) (data : List Byte) (n : Nat) (s : σ) :
    use w fd addr s = w.slave fd addr s ∧
    (write w fd data s).2 = (w.write fd data s).2 ∧ (read w fd n s).2 = (w.read fd n s).2.2 ∧ (read w fd n s).1.got = (w.read fd n s).2.1 ∧
    (if 0 < (w.write fd data s).1 ∧ (w.write fd data s).1 ≤ data.length then (write w fd data s).1 = (w.write fd data s).1 else (write w fd data s).1 < 0) ∧
    (if 0 < (w.read fd n s).1 ∧ (w.read fd n s).1 ≤ n then (read w fd n s).1.rc = (w.read fd n s).1 else (read w fd n s).1.rc < 0) := by
  rcases h1 : w.write fd data s with ⟨a, s1⟩
  rcases h2 : w.read fd n s with ⟨b, l, s2⟩
  simp only [write, read, h1, h2]
  refine ⟨rfl, trivial, trivial, trivial, ?_, ?_⟩
  · split
    · rw [if_neg (by omega), if_neg (by omega), if_neg (by omega)]
    · split
      · assumption
      · split
        · decide
        · split
          · decide
          · omega
  · split
    · rw [if_neg (by omega), if_neg (by omega), if_neg (by omega)]
    · split
      · assumption
      · split
        · decide
        · split
          · decide
          · omega

/-- C99.  The name of the device of a bus with one or two digits. -/
theorem i2c_open_partial (n : Nat) (h : n < 100) (d : List Byte) (hd : EndpointText.Decimal d n) : filename n = ascii "/dev/i2c-" ++ d := by
  rw [EndpointText.decimal_unique hd]
  simp only [filename]
  rw [if_neg (by omega), List.take_of_length_le, show ((n : Int)).toNat = n from rfl]
  rw [List.length_append, show (ascii "/dev/i2c-").length = 9 from rfl, show ((n : Int)).toNat = n from rfl]
  have : ∀ m : Fin 100, (Number.decimal m.val).length ≤ 2 := by decide +kernel
  have := this ⟨n, h⟩
  simp only [] at this
  omega

example : filename 17 = ascii "/dev/i2c-17" := by decide +kernel

/-- C99.  The device of a bus with three digits is that of another bus. -/
theorem i2c_open_counterexample : ∃ a b : Int, a ≠ b ∧ 0 ≤ a ∧ 0 ≤ b ∧ filename a = filename b := ⟨100, 10, by decide, by decide, by decide, by decide +kernel⟩

end Diminuto.I2c
