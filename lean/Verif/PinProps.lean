import Verif.PinKernel

/-!
# Properties: pins
-/

namespace Diminuto.Pin

variable {σ : Type}

/-- C97.  A configuration succeeds exactly if, after attempts that failed for reasons that may go away, and waiting between them, the file of the pin was there and was opened, the string was
written to it, and it was closed without an error.  There are at most as many attempts as asked for, there is no waiting after the last one, and whatever happens every stream
that was opened was closed. -/
theorem pin_configure (w : World σ) (root : Name) (ticks : BitVec 64) (a : Attr) (pin : Int) (hp : 0 ≤ pin) (string : Name) (ignore : Bool) (tries : Nat) (d : BitVec 64) (s : σ)
    (f : Name) (hf : Names root a pin.toNat f) (hl : f.length < 4096) :
    ∃ l s' r, configure (noting w) root ticks a pin string ignore tries d (s, []) = (r, s', l) ∧
      l.countP Event.isStat ≤ tries ∧ (0 < tries → l.countP Event.isDelay < l.countP Event.isStat) ∧ closed l = streams l ∧
      (r = true ↔ ∃ pre last, l = pre ++ last ∧ (∀ e ∈ pre, Waits f ticks e) ∧ Writes f string ignore last) := by
  have h := configure_noting w root ticks a pin hp string ignore tries d s []
  have e := names_unique _ _ _ _ hf
  rw [filename_short root a pin.toNat (by rw [← e]; exact hl), ← e] at h
  simpa using h

theorem configure_sets (w : World σ) (root : Name) (ticks : BitVec 64) (a : Attr) (pin : Int) (hp : 0 ≤ pin) (string : Name) (ignore : Bool) (tries : Nat) (d : BitVec 64)
    (f : Name) (hf : Names root a pin.toNat f) (hl : f.length < 4096) : Sets ticks f string ignore (configure (noting w) root ticks a pin string ignore tries d) := by
  intro s
  obtain ⟨l, s', r, h1, -, -, h2, h3⟩ := pin_configure w root ticks a pin hp string ignore tries d s f hf hl
  exact ⟨l, s', r, h1, h2, h3⟩

/-- C97.  What is written to which file for every setting of a pin. -/
theorem pin_settings (w : World σ) (root : Name) (ticks : BitVec 64) (tries : Nat) (pin : Int) (hp : 0 ≤ pin) (fe fu fd fa fg : Name) (he : Names root .export pin.toNat fe)
    (hu : Names root .unexport pin.toNat fu) (hd : Names root .direction pin.toNat fd) (ha : Names root .activelow pin.toNat fa) (hg : Names root .edge pin.toNat fg)
    (hl : fe.length < 4096 ∧ fu.length < 4096 ∧ fd.length < 4096 ∧ fa.length < 4096 ∧ fg.length < 4096) (n : Name) (hn : EndpointText.Decimal n pin.toNat) :
    Sets ticks fe (n ++ [10#8]) false (export_ (noting w) root ticks pin) ∧
    Sets ticks fu (n ++ [10#8]) false (unexport (noting w) root ticks pin) ∧
    Sets ticks fu (n ++ [10#8]) true (unexportIgnore (noting w) root ticks pin) ∧
    Sets ticks fa (ascii "0\n") false (active (noting w) root ticks tries pin true) ∧
    Sets ticks fa (ascii "1\n") false (active (noting w) root ticks tries pin false) ∧
    Sets ticks fd (ascii "out\n") false (direction (noting w) root ticks tries pin true) ∧
    Sets ticks fd (ascii "in\n") false (direction (noting w) root ticks tries pin false) ∧
    Sets ticks fd (ascii "high\n") false (initial (noting w) root ticks tries pin true) ∧
    Sets ticks fd (ascii "low\n") false (initial (noting w) root ticks tries pin false) ∧
    Sets ticks fg (ascii "none\n") false (edge (noting w) root ticks tries pin 0) ∧
    Sets ticks fg (ascii "rising\n") false (edge (noting w) root ticks tries pin 1) ∧
    Sets ticks fg (ascii "falling\n") false (edge (noting w) root ticks tries pin 2) ∧
    Sets ticks fg (ascii "both\n") false (edge (noting w) root ticks tries pin 3) := by
  obtain ⟨l1, l2, l3, l4, l5⟩ := hl
  have hline : line pin = n ++ [10#8] := by
    rw [EndpointText.decimal_unique hn]
    simp only [line, if_neg (show ¬ pin < 0 by omega)]
  have c := fun (a : Attr) (f : Name) (hf : Names root a pin.toNat f) (hl : f.length < 4096) string ignore tries d => configure_sets w root ticks a pin hp string ignore tries d f hf hl
  refine ⟨?_, ?_, ?_, c _ _ ha l4 _ _ _ ticks, c _ _ ha l4 _ _ _ ticks, c _ _ hd l3 _ _ _ ticks, c _ _ hd l3 _ _ _ ticks, c _ _ hd l3 _ _ _ ticks, c _ _ hd l3 _ _ _ ticks, c _ _ hg l5 _ _ _ ticks,
    c _ _ hg l5 _ _ _ ticks, c _ _ hg l5 _ _ _ ticks, c _ _ hg l5 _ _ _ ticks⟩
  · rw [← hline]; exact c _ _ he l1 _ _ _ 0#64
  · rw [← hline]; exact c _ _ hu l2 _ _ _ 0#64
  · rw [← hline]; exact c _ _ hu l2 _ _ _ 0#64

example : Names (ascii "/sys") .edge (18 : Int).toNat (ascii "/sys/class/gpio/gpio18/edge") ∧ (ascii "/sys/class/gpio/gpio18/edge").length < 4096 :=
  ⟨(show path (ascii "/sys") .edge 18 = ascii "/sys/class/gpio/gpio18/edge" by decide +kernel) ▸ path_names (ascii "/sys") .edge 18, by decide⟩

/-- C97.  A pin that has been given up was unexported first, and then its stream was closed; if unexporting fails nothing is closed but what was opened for it. -/
theorem pin_unused (w : World σ) (root : Name) (ticks : BitVec 64) (pin : Int) (hp : 0 ≤ pin) (h : Nat) (s : σ) (f : Name) (hf : Names root .unexport pin.toNat f) (hl : f.length < 4096)
    (n : Name) (hn : EndpointText.Decimal n pin.toNat) :
    ∃ l s' r, unused (noting w) root ticks (some h) pin (s, []) = (r, s', l) ∧
      (r = none ↔ ∃ pre last, l = pre ++ last ++ [.fclose h true] ∧ (∀ e ∈ pre, Waits f ticks e) ∧ Writes f (n ++ [10#8]) false last) ∧
      (r ≠ none → r = some h) := by
  have hline : line pin = n ++ [10#8] := by
    rw [EndpointText.decimal_unique hn]
    simp only [line, if_neg (show ¬ pin < 0 by omega)]
  obtain ⟨l, s1, r, h1, h2, h3⟩ := configure_sets w root ticks .unexport pin hp (line pin) false 1 0#64 f hf hl s
  simp only [unused, unexport, port, h1]
  cases r with
  | false =>
    refine ⟨l, s1, some h, rfl, ⟨(by intro h; cases h), ?_⟩, fun _ => rfl⟩
    rintro ⟨pre, last, rfl, w1, fp, p, q, rfl, -, -⟩
    exfalso
    have e1 : closed (pre ++ [.stat f (.ok ()), .fopen f true (.ok fp), .fputs fp (n ++ [10#8]) p, .fflush fp q, .fclose fp true] ++ [.fclose h true]) = closed pre ++ [fp, h] := by
      rw [closed_append, closed_append]; simp [closed]
    have e2 : streams (pre ++ [.stat f (.ok ()), .fopen f true (.ok fp), .fputs fp (n ++ [10#8]) p, .fflush fp q, .fclose fp true] ++ [.fclose h true]) = streams pre ++ [fp] := by
      rw [streams_append, streams_append]; simp [streams]
    rw [e1, e2] at h2
    have e3 : streams pre = [] ∧ closed pre = [] := by
      clear h1 h2 h3 e1 e2
      induction pre with
      | nil => exact ⟨rfl, rfl⟩
      | cons e t ih =>
        have := ih (fun x hx => w1 x (List.mem_cons_of_mem _ hx))
        rcases w1 e (List.mem_cons_self ..) with rfl | rfl | rfl | rfl <;> exact this
    rw [e3.1, e3.2] at h2
    simp at h2
  | true =>
    obtain ⟨pre, last, rfl, w1, w2⟩ := h3.mp rfl
    rcases hc : w.fclose h s1 with ⟨ok, s2⟩
    simp only [close, noting, hc]
    cases ok with
    | false =>
      refine ⟨pre ++ last ++ [.fclose h false], s2, some h, rfl, ⟨(by intro h; cases h), ?_⟩, fun _ => rfl⟩
      rintro ⟨pre', last', he, -, -⟩
      have := (List.append_inj' he rfl).2
      simp at this
    | true =>
      refine ⟨pre ++ last ++ [.fclose h true], s2, none, rfl, ⟨fun _ => ⟨pre, last, rfl, w1, by rw [← hline]; exact w2⟩, fun _ => rfl⟩, fun hn => absurd rfl hn⟩

/-- C97.  The root of the file system can be replaced and restored. -/
theorem pin_debug (root tmp : Name) : debug root (some tmp) = (tmp, root) ∧ debug root none = (ascii "/sys", root) := ⟨rfl, rfl⟩

example : (debug (debug (ascii "/sys") (some (ascii "/tmp"))).1 none).1 = ascii "/sys" := by decide

/-- C97.  For a negative pin nothing is done. -/
theorem pin_configure_negative (w : World σ) (root : Name) (ticks : BitVec 64) (a : Attr) (pin : Int) (hp : pin < 0) (string : Name) (ignore : Bool) (tries : Nat) (d : BitVec 64) (s : σ) :
    configure w root ticks a pin string ignore tries d s = (false, s) ∧ ∀ output, open_ w root pin output s = (none, s) ∧ setup w root ticks tries pin output s = (none, s) := by
  have : configure w root ticks a pin string ignore tries d s = (false, s) := by simp [configure, hp]
  refine ⟨this, fun output => ⟨by simp [open_, hp], ?_⟩⟩
  simp [setup, export_, port, configure, hp]

example : configure (kernel (ascii "/sys") 3) (ascii "/sys") 5#64 .export (-3) (ascii "3\n") false 9 5#64 ⟨false, 0, false, false, [], 0⟩ = (false, ⟨false, 0, false, false, [], 0⟩) :=
  (pin_configure_negative _ _ _ _ _ (by decide) _ _ _ _ _).1

/-- C97.  Setting up a pin that succeeds has exported it, then set its direction, and then opened the file with its value, in the mode for the direction; its stream is the only one that is left
open.  If it fails there is none. -/
theorem pin_setup (w : World σ) (root : Name) (ticks : BitVec 64) (tries : Nat) (pin : Int) (output : Bool) (s : σ) (fe fd fv : Name) (he : Names root .export pin.toNat fe)
    (hd : Names root .direction pin.toNat fd) (hv : Names root .value pin.toNat fv) (hl : fd.length < 4096) (n : Name) (hn : EndpointText.Decimal n pin.toNat) :
    ∃ l s' r, setup (noting w) root ticks tries pin output (s, []) = (r, s', l) ∧
      match r with
      | none => closed l = streams l
      | some h => streams l = closed l ++ [h] ∧ ∃ l1 l2 l3 l4, l = l1 ++ l2 ++ (l3 ++ l4) ++ [.stat fv (.ok ()), .fopen fv output (.ok h)] ∧
          (∀ e ∈ l1, Waits fe ticks e) ∧ Writes fe (n ++ [10#8]) false l2 ∧ (∀ e ∈ l3, Waits fd ticks e) ∧ Writes fd (if output then ascii "out\n" else ascii "in\n") false l4 := by
  by_cases hp : pin < 0
  · rw [(pin_configure_negative (noting w) root ticks .export pin hp [] false tries 0#64 (s, [])).2 output |>.2]
    exact ⟨[], s, none, rfl, rfl⟩
  have ee := names_unique _ _ _ _ he
  have ed := names_unique _ _ _ _ hd
  have ev := names_unique _ _ _ _ hv
  have hlen : (path root .direction pin.toNat).length < PATH := by rw [← ed]; exact hl
  have hlv : (path root .value pin.toNat).length < PATH := by
    simp only [path, List.length_append, ascii, PATH] at hlen ⊢
    simp at hlen ⊢
    omega
  have hle : (path root .export pin.toNat).length < PATH := by
    simp only [path, List.length_append, ascii, PATH] at hlen ⊢
    simp at hlen ⊢
    omega
  obtain ⟨la, s1, r1, c1, -, -, x1, y1⟩ := configure_noting w root ticks .export pin (by omega) (line pin) false 1 0#64 s []
  rw [filename_short _ _ _ hle, ← ee] at y1
  simp only [setup, export_, port, c1]
  cases r1 with
  | false => exact ⟨la, s1, none, by simp, x1⟩
  | true =>
    obtain ⟨l1, l2, rfl, w1, w2⟩ := y1.mp rfl
    obtain ⟨lb, s2, r2, c2, -, -, x2, y2⟩ := configure_noting w root ticks .direction pin (by omega) (if output then ascii "out\n" else ascii "in\n") false tries ticks s1 ([] ++ (l1 ++ l2))
    rw [filename_short _ _ _ hlen, ← ed] at y2
    simp only [direction, c2]
    cases r2 with
    | false =>
      refine ⟨l1 ++ l2 ++ lb, s2, none, by simp, ?_⟩
      simp only []
      rw [closed_append, streams_append, x1, x2]
    | true =>
      obtain ⟨l3, l4, rfl, w3, w4⟩ := y2.mp rfl
      simp only [open_]
      rw [if_neg hp, filename_short _ _ _ hlv, ← ev]
      rcases hs : w.stat fv s2 with ⟨a, s3⟩
      simp only [noting, hs]
      have hbase : closed (l1 ++ l2 ++ (l3 ++ l4)) = streams (l1 ++ l2 ++ (l3 ++ l4)) := by
        rw [closed_append, streams_append, x1, x2]
      cases a with
      | transient =>
        refine ⟨l1 ++ l2 ++ (l3 ++ l4) ++ [.stat fv .transient], s3, none, by simp, ?_⟩
        simp only []
        rw [closed_append, streams_append, hbase]; rfl
      | other =>
        refine ⟨l1 ++ l2 ++ (l3 ++ l4) ++ [.stat fv .other], s3, none, by simp, ?_⟩
        simp only []
        rw [closed_append, streams_append, hbase]; rfl
      | ok u =>
        obtain rfl : u = () := rfl
        rcases hf : w.fopen fv output s3 with ⟨b, s4⟩
        simp only [hf]
        cases b with
        | transient =>
          refine ⟨l1 ++ l2 ++ (l3 ++ l4) ++ [.stat fv (.ok ()), .fopen fv output .transient], s4, none, by simp, ?_⟩
          simp only []
          rw [closed_append, streams_append, hbase]; rfl
        | other =>
          refine ⟨l1 ++ l2 ++ (l3 ++ l4) ++ [.stat fv (.ok ()), .fopen fv output .other], s4, none, by simp, ?_⟩
          simp only []
          rw [closed_append, streams_append, hbase]; rfl
        | ok h =>
          refine ⟨l1 ++ l2 ++ (l3 ++ l4) ++ [.stat fv (.ok ()), .fopen fv output (.ok h)], s4, some h, by simp, ?_, l1, l2, l3, l4, rfl, w1, ?_, w3, w4⟩
          · rw [closed_append, streams_append, hbase]; simp [closed, streams]
          · rw [EndpointText.decimal_unique hn]
            simp only [line, if_neg hp] at w2
            exact w2

/-- C97.  With the kernel of the specification, if the files of a pin are there within fewer delays than there are tries, setting it up succeeds: it is exported, it has the direction
that was asked for, and the stream is that of its value. -/
theorem pin_setup_succeeds (root : Name) (pin : Nat) (ticks : BitVec 64) (tries : Nat) (output : Bool) (k : Kernel) (hk : k.Fresh) (he : k.exported = false) (ht : k.lag < tries)
    (f : Name) (hf : Names root .direction pin f) (hl : f.length < 4096) :
    ∃ h k', setup (kernel root pin) root ticks tries pin output k = (some h, k') ∧ k'.exported = true ∧ k'.output = output ∧ k'.value = k.value ∧ k'.streams = (h, .value, output, []) :: k.streams := by
  have e := names_unique _ _ _ _ hf
  exact ⟨_, _, setup_kernel root pin ticks tries output k hk he ht (by rw [← e]; exact hl), rfl, rfl, rfl, rfl⟩

example : Kernel.Fresh ⟨false, 3, false, false, [], 0⟩ ∧ (⟨false, 3, false, false, [], 0⟩ : Kernel).lag < 8 := ⟨(by intro x hx; cases hx), by decide⟩

/-- C97.  What is put to a pin is its value; what is got from a pin is its value. -/
theorem pin_put_get (root : Name) (pin : Nat) (k : Kernel) (h g : Nat) (b : Bool) (u v : Name) (ho : k.output = true)
    (hh : k.streams.find? (·.1 = h) = some (h, .value, true, u)) (hg : k.streams.find? (·.1 = g) = some (g, .value, false, v)) :
    put (kernel root pin) h b k = (true, { k with value := b }) ∧
    get (kernel root pin) g k = (if k.value then 1 else 0, k) ∧
    (get (kernel root pin) g (put (kernel root pin) h b k).2).1 = if b then 1 else 0 := by
  have hput : put (kernel root pin) h b k = (true, { k with value := b }) := by
    have hs : ∀ t, Kernel.store k pin .value t = if t = ascii "1\n" ∧ k.output then (.ok, { k with value := true }) else if t = ascii "0\n" ∧ k.output then (.ok, { k with value := false }) else (.other, k) :=
      fun _ => rfl
    cases b
    · simp only [put, kernel, hh, hs, ho]; simp [ascii]
    · simp only [put, kernel, hh, hs, ho]; simp [ascii]
  have hget : ∀ k' : Kernel, k'.streams = k.streams → get (kernel root pin) g k' = (if k'.value then 1 else 0, k') := by
    intro k' hk'
    simp only [get, kernel, hk', hg]
    cases k'.value <;> simp [ascii]
  refine ⟨hput, hget k rfl, ?_⟩
  rw [hput, hget { k with value := b } rfl]

example : put (kernel [] 3) 0 true ⟨true, 0, true, false, [(0, .value, true, []), (1, .value, false, [])], 2⟩ =
    (true, ⟨true, 0, true, true, [(0, .value, true, []), (1, .value, false, [])], 2⟩) := by decide +kernel

/-- C97.  To put a value goes to the beginning of the file and writes the digit and a newline; it succeeds exactly if neither fails. -/
theorem pin_put (w : World σ) (fp : Nat) (b : Bool) (s : σ) :
    ∃ l s' r, put (noting w) fp b (s, []) = (r, s', l) ∧
      (r = true ↔ ∃ n, l = [.lseek fp true, .write fp (if b then ascii "1\n" else ascii "0\n") n] ∧ 0 ≤ n) := by
  rcases h1 : w.lseek fp s with ⟨ok, s1⟩
  simp only [put, noting, h1]
  cases ok with
  | false => exact ⟨[.lseek fp false], s1, false, rfl, (by intro h; cases h), (by rintro ⟨n, h, -⟩; simp at h)⟩
  | true =>
    rcases h2 : w.write fp (if b then ascii "1\n" else ascii "0\n") s1 with ⟨n, s2⟩
    refine ⟨[.lseek fp true, .write fp (if b then ascii "1\n" else ascii "0\n") n], s2, !decide (n < 0), ?_, ?_⟩
    · simp [h2]
    · constructor
      · intro h
        exact ⟨n, rfl, by simpa using h⟩
      · rintro ⟨m, h, hm⟩
        simp at h
        subst h
        simpa using hm

/-- C97.  Success is also reported if nothing was written. -/
theorem pin_put_short_counterexample : ∃ (w : World Unit), (put (noting w) 0 true ((), [])).1 = true ∧ .write 0 (ascii "1\n") 0 ∈ (put (noting w) 0 true ((), [])).2.2 := by
  refine ⟨⟨fun _ s => (.ok (), s), fun _ _ s => (.ok 0, s), fun _ _ s => (.ok, s), fun _ s => (.ok, s), fun _ s => (true, s), fun _ s => s, fun _ s => (true, s), fun _ _ s => (0, s), fun _ _ s => (none, s)⟩, ?_, ?_⟩
  · decide +kernel
  · decide +kernel

/-- C97.  What is got is 0 or 1 exactly if the file begins with that digit, whatever the calls do. -/
theorem pin_get (w : World σ) (fp : Nat) (s : σ) :
    (get w fp s).1 = (match w.lseek fp s with
      | (false, _) => -1
      | (true, s) =>
        match (w.read fp 2 s).1 with
        | none => -1
        | some t => if t.head? = some 48#8 then 0 else if t.head? = some 49#8 then 1 else -1) := by
  simp only [get]
  rcases w.lseek fp s with ⟨b, s1⟩
  cases b with
  | false => rfl
  | true =>
    simp only []
    rcases w.read fp 2 s1 with ⟨r, s2⟩
    match r with
    | none => rfl
    | some [] => rfl
    | some (c :: t) => simp

example : (get (kernel [] 3) 1 ⟨true, 0, true, true, [(1, .value, false, [])], 2⟩).1 = 1 := by decide +kernel

/-- C97.  The strings for the edges. -/
theorem pin_edges : edges 0 = ascii "none\n" ∧ edges 1 = ascii "rising\n" ∧ edges 2 = ascii "falling\n" ∧ edges 3 = ascii "both\n" := by decide

/-- C97.  The delay between attempts is that of the global variable, not the one that is given. -/
theorem pin_delay_counterexample : ∃ (ticks d : BitVec 64) (k : Kernel), ticks ≠ d ∧
    .delay ticks ∈ (configure (noting (kernel [] 3)) [] ticks .edge (3 : Nat) [] false 2 d (k, [])).2.2 ∧
    .delay d ∉ (configure (noting (kernel [] 3)) [] ticks .edge (3 : Nat) [] false 2 d (k, [])).2.2 := by
  refine ⟨250000000#64, 1#64, ⟨true, 1, false, false, [], 0⟩, by decide, by decide +kernel, by decide +kernel⟩

/-- C97.  If setting up a pin fails after it has been exported it remains exported, and then to give it up does nothing, because there is no stream. -/
theorem pin_leak_counterexample : ∃ (k k' : Kernel), setup (kernel [] 3) [] 1#64 2 (3 : Nat) true k = (none, k') ∧ k.exported = false ∧ k'.exported = true ∧ unused (kernel [] 3) [] 1#64 none 3 k' = (none, k') :=
  ⟨⟨false, 2, false, false, [], 0⟩, ⟨true, 1, false, false, [], 1⟩, by decide +kernel, rfl, rfl, rfl⟩

/-- C97.  To give up a pin that is not exported fails, and leaves its stream open. -/
theorem pin_unused_counterexample : ∃ (k : Kernel), k.streams = [(0, .value, true, [])] ∧ (unused (kernel [] 3) [] 1#64 (some 0) 3 k).1 = some 0 ∧ (unused (kernel [] 3) [] 1#64 (some 0) 3 k).2.streams = k.streams :=
  ⟨⟨false, 0, false, false, [(0, .value, true, [])], 1⟩, rfl, by decide +kernel, by decide +kernel⟩

/-- C97.  A name that is too long is cut and used: the file that is opened and written to is not that of the pin. -/
theorem pin_cut_counterexample : ∃ (w : World Unit) (root f : Name), (configure (noting w) root 1#64 .direction (3 : Nat) (ascii "out\n") false 1 1#64 ((), [])).1 = true ∧
    .fopen f true (.ok 0) ∈ (configure (noting w) root 1#64 .direction (3 : Nat) (ascii "out\n") false 1 1#64 ((), [])).2.2 ∧ ¬ Names root .direction 3 f := by
  let w : World Unit := ⟨fun _ s => (.ok (), s), fun _ _ s => (.ok 0, s), fun _ _ s => (.ok, s), fun _ s => (.ok, s), fun _ s => (true, s), fun _ s => s, fun _ s => (true, s), fun _ _ s => (0, s), fun _ _ s => (none, s)⟩
  have hf : filename (List.replicate 4095 47#8) .direction 3 = List.replicate 4095 47#8 := by
    simp only [filename, path, PATH]
    rw [List.append_assoc, List.append_assoc, List.take_append_of_le_length (by rw [List.length_replicate]; decide), List.take_of_length_le (by rw [List.length_replicate]; decide)]
  have hc : configure (noting w) (List.replicate 4095 47#8) 1#64 .direction (3 : Nat) (ascii "out\n") false 1 1#64 ((), []) =
      (true, (), [.stat (List.replicate 4095 47#8) (.ok ()), .fopen (List.replicate 4095 47#8) true (.ok 0), .fputs 0 (ascii "out\n") .ok, .fflush 0 .ok, .fclose 0 true]) := by
    simp only [configure]
    rw [if_neg (by decide), show ((3 : Nat) : Int).toNat = 3 from rfl, hf]
    simp only [attempt, noting, w, tolerated, Bool.true_eq_false, if_false, List.nil_append, List.cons_append]
  refine ⟨w, List.replicate 4095 47#8, List.replicate 4095 47#8, by rw [hc], ?_, ?_⟩
  · rw [hc]; exact List.mem_cons_of_mem _ (List.mem_cons_self ..)
  · rintro ⟨d, -, h⟩
    have := congrArg List.length h
    simp only [List.length_append, List.length_replicate, ascii, List.length_map] at this
    simp at this
    omega

end Diminuto.Pin
