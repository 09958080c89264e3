import Verif.Msg.LemmasHeapRoom

/-!
# Properties of the buffers used by messages (C13)

A program starts with two created pools and no message and makes any history `cs` of
calls. `held [] log` are the buffers a pool has handed out and not got back,
`ownedSmall` and `ownedMedium` the buffers the messages point to, and `Clean [] log`
says that every free gave back a buffer handed out at that time.
-/

namespace FreeCoAP.Msg.Heap

open FreeCoAP.Mem (Pool Call held)

/-- The program before its first call. -/
def start (small medium : Pool) : Prog := ⟨Heap.init small medium, []⟩

/-- C13 in full: after any history the buffers handed out are exactly those the messages
point to, each pointed to once, and only buffers that are handed out are given back. -/
def C13_statement : Prop :=
  ∀ (ns ls nm lm : Nat) (small medium : Pool), Created ns ls nm lm small medium →
    ∀ (S : Nat) (sx : Bool) (cs : List Cmd), let p := run S sx (start small medium) cs
      (held [] p.heap.smallLog).Perm p.ownedSmall ∧ (held [] p.heap.mediumLog).Perm p.ownedMedium ∧
      p.ownedSmall.Nodup ∧ p.ownedMedium.Nodup ∧
      Clean [] p.heap.smallLog ∧ Clean [] p.heap.mediumLog

/-- Two pools for the examples: 8 small buffers of 32 bytes and 8 medium ones of 4 bytes. -/
def exSmall : Pool := ⟨1000, 8, 32, 2000, [0#8]⟩
def exMedium : Pool := ⟨5000, 8, 4, 6000, [0#8]⟩

theorem ex_created : Created 8 32 8 4 exSmall exMedium :=
  ⟨⟨2 ^ 64, [], _, some 1000, some 2000, rfl⟩, ⟨2 ^ 64, [], _, some 5000, some 6000, rfl⟩, Or.inl (by decide)⟩

/-- C13 is violated: adding an option whose value has no buffer (here it is longer than
the buffers of the medium pool) leaves a small buffer handed out that no message owns,
and gives its address to the wrong pool. Eight such calls exhaust the small pool. -/
theorem C13_violated : ¬ C13_statement := by
  intro h
  have := h 8 32 8 4 exSmall exMedium ex_created 32 false [.create, .addOp 0 11 [1, 2, 3, 4, 5]]
  have h2 := this.2.2.2.2.2
  have e : (run 32 false (start exSmall exMedium) [.create, .addOp 0 11 [1, 2, 3, 4, 5]]).heap.mediumLog =
      [(.alloc 5, none), (.free 1000, none)] := by decide +kernel
  rw [e] at h2
  exact absurd h2.1 (by simp)

/-- Eight failing calls on a message, then its destruction. -/
def exFail : List Cmd := (.create :: List.replicate 8 (.addOp 0 11 [1, 2, 3, 4, 5])) ++ [.destroy 0]

/-- After eight failed calls on a destroyed message nothing can be allocated any more,
although no message owns anything. -/
example : let p := run 32 false (start exSmall exMedium) exFail
    p.ownedSmall = [] ∧ (held [] p.heap.smallLog).length = 8 ∧ (p.heap.small.alloc 1).1 = none := by
  decide +kernel

/-- C13, proved part 1, for every history: no medium buffer is leaked, none is owned
twice, and the small pool only gets back buffers that it has handed out. The small
buffers handed out are those the messages point to and the ones in `lost`, which are the
structures of options whose value could not be allocated; no other buffer leaks. -/
theorem C13_exact_but_lost_partial {ns ls nm lm : Nat} {small medium : Pool} (c : Created ns ls nm lm small medium)
    (S : Nat) (sx : Bool) (cs : List Cmd) : let p := run S sx (start small medium) cs
    (held [] p.heap.smallLog).Perm (p.ownedSmall ++ p.heap.lost) ∧
    (held [] p.heap.mediumLog).Perm p.ownedMedium ∧
    p.ownedSmall.Nodup ∧ p.ownedMedium.Nodup ∧ Clean [] p.heap.smallLog := by
  obtain ⟨hg, i0⟩ := c.init
  have i := run_inv hg S sx cs (start small medium) i0
  refine ⟨i.permS, i.permM, ?_, ?_, i.cleanS⟩
  · exact (List.nodup_append.1 (i.permS.nodup_iff.1 i.relS.nodup)).1
  · exact i.permM.nodup_iff.1 i.relM.nodup

/-- C13, proved part 2: the full statement for every history in which the medium pool
has refused no request. -/
theorem C13_no_leak_partial {ns ls nm lm : Nat} {small medium : Pool} (c : Created ns ls nm lm small medium)
    (S : Nat) (sx : Bool) (cs : List Cmd) : let p := run S sx (start small medium) cs
    (∀ l, (Call.alloc l, none) ∉ p.heap.mediumLog) →
    (held [] p.heap.smallLog).Perm p.ownedSmall ∧ (held [] p.heap.mediumLog).Perm p.ownedMedium ∧
    p.ownedSmall.Nodup ∧ p.ownedMedium.Nodup ∧
    Clean [] p.heap.smallLog ∧ Clean [] p.heap.mediumLog := by
  intro p hr
  obtain ⟨hg, i0⟩ := c.init
  have i := run_inv hg S sx cs (start small medium) i0
  have hlost : p.heap.lost = [] := by
    apply Decidable.byContradiction
    intro hne
    rcases (le_run S sx cs (start small medium)).2 hne with h | ⟨l, h⟩
    · exact h rfl
    · exact hr l h
  have hs : (held [] p.heap.smallLog).Perm p.ownedSmall := by
    have := i.permS
    rw [hlost, List.append_nil] at this
    exact this
  exact ⟨hs, i.permM, hs.nodup_iff.1 i.relS.nodup, i.permM.nodup_iff.1 i.relM.nodup, i.cleanS, i.cleanM hlost⟩

/-- A history with parsing, copying and failing calls. -/
def exHist : List Cmd :=
  [.create, .create, .parse 0 [0x41, 1, 0, 1, 7, 0xb1, 65, 0xff, 1, 0] 9, .copy 1 0, .parse 0 [0x41, 1, 0, 1, 7, 0xb1] 6,
    .setPayload 1 [1, 2], .addOp 0 3 [], .destroy 0]

/-- The hypothesis holds for histories with parsing, copying and failing calls. -/
example : let p := run 32 false (start exSmall exMedium) exHist
    (∀ l, (Call.alloc l, none) ∉ p.heap.mediumLog) ∧ p.ownedSmall = [1032] ∧ p.ownedMedium = [5008, 5000] := by
  refine ⟨?_, by decide +kernel, by decide +kernel⟩
  intro l h
  have e : (run 32 false (start exSmall exMedium) exHist).heap.mediumLog.all (fun e => e.1 == Call.free 0 || e.2.isSome ||
          match e.1 with | .free _ => true | .alloc _ => false) = true := by decide +kernel
  have := List.all_eq_true.1 e _ h
  simp at this

/-- C13. Destroying (or resetting) a message returns every buffer it owns, and leaves
the other messages alone: destroying all messages leaves only lost buffers handed out. -/
theorem C13_destroy_all_partial {ns ls nm lm : Nat} {small medium : Pool} (c : Created ns ls nm lm small medium)
    (S : Nat) (sx : Bool) (cs : List Cmd) : let p := run S sx (start small medium) cs
    let q := run S sx p ((List.range p.msgs.length).map .destroy)
    (held [] q.heap.smallLog).Perm p.heap.lost ∧ held [] q.heap.mediumLog = [] := by
  intro p q
  obtain ⟨hg, i0⟩ := c.init
  have i := run_inv hg S sx cs (start small medium) i0
  have j := run_inv hg S sx ((List.range p.msgs.length).map .destroy) p i
  -- destroying messages `0 .. n-1` leaves them zero
  have key : ∀ (n : Nat), n ≤ p.msgs.length →
      (run S sx p ((List.range n).map .destroy)).msgs = List.replicate n zero ++ p.msgs.drop n ∧
      (run S sx p ((List.range n).map .destroy)).heap.lost = p.heap.lost := by
    intro n
    induction n with
    | zero => intro _; exact ⟨rfl, rfl⟩
    | succ n ih =>
      intro hn
      obtain ⟨ih1, ih2⟩ := ih (by omega)
      rw [List.range_succ, List.map_append]
      unfold run at ih1 ih2 ⊢
      rw [List.foldl_append]
      generalize List.foldl (step S sx) p (List.map Cmd.destroy (List.range n)) = r at ih1 ih2
      simp only [List.map_cons, List.map_nil, List.foldl_cons, List.foldl_nil, step]
      have hg : r.msgs[n]? = some (p.msgs[n]'(by omega)) := by
        rw [ih1, List.getElem?_append_right (by simp)]
        simp only [List.length_replicate, Nat.sub_self, List.getElem?_drop, Nat.add_zero]
        exact List.getElem?_eq_getElem (by omega)
      rw [hg]
      refine ⟨?_, ?_⟩
      · simp only [put, Heap.destroy, ih1]
        rw [List.set_append_right _ _ (by simp)]
        simp only [List.length_replicate, Nat.sub_self]
        rw [List.drop_eq_getElem_cons (by omega), List.set_cons_zero, List.replicate_succ', List.append_assoc]
        rfl
      · simp only [put, Heap.destroy]
        have e := listDestroy_lost (p.msgs[n]'(by omega)).ops r.heap
        unfold Heap.clearPayload
        cases (p.msgs[n]'(by omega)).payload with
        | none => rw [← ih2]; exact e
        | some pl => rw [← ih2]; exact e
  obtain ⟨k1, k2⟩ := key p.msgs.length (Nat.le_refl _)
  rw [List.drop_length, List.append_nil] at k1
  have os : q.ownedSmall = [] := by
    unfold Prog.ownedSmall
    change (run S sx p ((List.range p.msgs.length).map .destroy)).msgs.flatMap _ = []
    rw [k1, List.flatMap_eq_nil_iff]
    intro m hm
    rw [(List.mem_replicate.1 hm).2]; rfl
  have om : q.ownedMedium = [] := by
    unfold Prog.ownedMedium
    change (run S sx p ((List.range p.msgs.length).map .destroy)).msgs.flatMap _ = []
    rw [k1, List.flatMap_eq_nil_iff]
    intro m hm
    rw [(List.mem_replicate.1 hm).2]; rfl
  have h1 := j.permS
  have h2 := j.permM
  change (held [] q.heap.smallLog).Perm (q.ownedSmall ++ q.heap.lost) at h1
  change (held [] q.heap.mediumLog).Perm q.ownedMedium at h2
  rw [os, List.nil_append] at h1
  rw [om] at h2
  have e : q.heap.lost = p.heap.lost := k2
  rw [e] at h1
  exact ⟨h1, h2.eq_nil⟩

example : let p := run 32 false (start exSmall exMedium) (exHist.take 4)
    p.msgs.length = 2 ∧ p.ownedSmall = [1000, 1032] ∧ p.ownedMedium = [5000, 5004, 5008, 5012] := by decide +kernel

/-! ## The model without buffers is what this model computes -/

/-- C13, C05 - C18. Parsing with buffers has the result of parsing without, or fails for lack of
memory: a success gives the same message and an error other than `ENOMEM` is the same error. -/
theorem C13_parse_same_result (S : Nat) (sx : Bool) (h : Heap) (m : HMsg) (mem : Bytes) (len : Nat) :
    ((parse S sx h m mem len).1 = .ok () → Msg.parse sx mem len = .ok (parse S sx h m mem len).2.1.abs) ∧
    (∀ e, (parse S sx h m mem len).1 = .err e → e = .ENOMEM ∨ Msg.parse sx mem len = .err e) ∧
    ((parse S sx h m mem len).1 = .ub → Msg.parse sx mem len = .ub) := by
  have r := parse_refines S sx h m mem len
  refine ⟨fun e => ?_, fun e' e => ?_, fun e => ?_⟩ <;> rw [e] at r <;> exact r

/-- The same for adding an option, setting the payload and copying. -/
theorem C13_edit_same_result (S : Nat) (h : Heap) (m src : HMsg) (num : Nat) (val buf : Bytes) :
    ((addOp S h m num val).1 = .ok () ∧ (addOp S h m num val).2.1.abs = Msg.addOp m.abs num val ∨
      (addOp S h m num val).1 = .err .ENOMEM) ∧
    ((setPayload h m buf).1 = .ok () ∧ (setPayload h m buf).2.1.abs = Msg.setPayload m.abs buf ∨
      (setPayload h m buf).1 = .err .ENOMEM) ∧
    ((copy S h m src).1 = .err .ENOMEM ∨
      match Msg.copy m.abs src.abs with
      | .ok r => (copy S h m src).1 = .ok () ∧ (copy S h m src).2.1.abs = r
      | .err e => (copy S h m src).1 = .err e
      | .ub => (copy S h m src).1 = .ub) := by
  refine ⟨?_, ?_, ?_⟩
  · have r := addOp_refines S h m num val
    cases e : (addOp S h m num val).1 with
    | ok u => rw [e] at r; simp only [Refines, Out.ok.injEq] at r; exact Or.inl ⟨rfl, r.symm⟩
    | err x =>
      rw [e] at r; simp only [Refines] at r
      rcases r with r | r
      · exact Or.inr (by rw [r])
      · cases r
    | ub => rw [e] at r; simp only [Refines] at r; cases r
  · have r := setPayload_refines h m buf
    cases e : (setPayload h m buf).1 with
    | ok u => rw [e] at r; simp only [Refines, Out.ok.injEq] at r; exact Or.inl ⟨rfl, r.symm⟩
    | err x =>
      rw [e] at r; simp only [Refines] at r
      rcases r with r | r
      · exact Or.inr (by rw [r])
      · cases r
    | ub => rw [e] at r; simp only [Refines] at r; cases r
  · have r := copy_refines S h m src
    cases e : (copy S h m src).1 with
    | ok u => rw [e] at r; simp only [Refines] at r; rw [r]; exact Or.inr ⟨rfl, rfl⟩
    | err x =>
      rw [e] at r; simp only [Refines] at r
      rcases r with r | r
      · exact Or.inl (by rw [r])
      · rw [r]; exact Or.inr rfl
    | ub => rw [e] at r; simp only [Refines] at r; rw [r]; exact Or.inr rfl

/-- RFC 7252 sections 3, 4.1 and 4.3: an Empty message that has contents or is
non-confirmable, or a reset that is not Empty. -/
def Inconsistent (m : HMsg) : Prop :=
  (m.codeClass = 0 ∧ m.codeDetail = 0 ∧ (m.type = NON ∨ m.token ≠ [] ∨ m.ops ≠ [] ∨ plBytes m.payload ≠ [])) ∨
  (¬ (m.codeClass = 0 ∧ m.codeDetail = 0) ∧ m.type = RST)

/-- C13. Parsing that fails leaves a message with nothing in it, unless the message was
parsed to its end and is inconsistent. -/
theorem C13_failed_parse (S : Nat) (sx : Bool) (h : Heap) (m : HMsg) (mem : Bytes) (len : Nat) (e : Err)
    (hf : (parse S sx h m mem len).1 = .err e) :
    (parse S sx h m mem len).2.1 = zero ∨ Inconsistent (parse S sx h m mem len).2.1 := by
  unfold Heap.parse at hf ⊢
  simp only at hf ⊢
  cases h1 : parseHdr mem len with
  | ub => rw [h1] at hf; cases hf
  | err e => exact Or.inl rfl
  | ok hd =>
    rw [h1] at hf
    simp only at hf ⊢
    cases h2 : parseToken hd.tokenLen (mem.drop 4) (len - 4) with
    | ub => rw [h2] at hf; cases hf
    | err e => exact Or.inl rfl
    | ok token =>
      rw [h2] at hf
      simp only at hf ⊢
      generalize parseOps S sx (len - 4 - hd.tokenLen + 1) [] (mem.drop (4 + hd.tokenLen)) (len - 4 - hd.tokenLen)
        (reset h m).2 = x at hf ⊢
      obtain ⟨r, ops, h3⟩ := x
      cases r with
      | ub => cases hf
      | err e => exact Or.inl rfl
      | ok n =>
        simp only at hf ⊢
        generalize parsePayload ((mem.drop (4 + hd.tokenLen)).drop n) (len - 4 - hd.tokenLen - n) h3 = y at hf ⊢
        obtain ⟨r, h4⟩ := y
        cases r with
        | ub => cases hf
        | err e => exact Or.inl rfl
        | ok pl =>
          simp only at hf ⊢
          refine Or.inr ?_
          unfold check at hf
          split at hf
          · rename_i hc
            split at hf
            · rename_i hd'
              refine Or.inl ⟨hc.1, hc.2, ?_⟩
              rcases hd' with k | k | k | k
              · exact Or.inl k
              · exact Or.inr (Or.inl (fun e => k (congrArg List.length e)))
              · exact Or.inr (Or.inr (Or.inl (fun e => k (congrArg (List.map HOp.abs) e))))
              · exact Or.inr (Or.inr (Or.inr (fun e => k (congrArg List.length e))))
            · cases hf
          · rename_i hc
            split at hf
            · rename_i hd'
              exact Or.inr ⟨hc, hd'⟩
            · cases hf

/-- C13. Adding an option that fails leaves the message as it was, and setting a payload
that fails leaves it without one. -/
theorem C13_failed_edit (S : Nat) (h : Heap) (m : HMsg) (num : Nat) (val buf : Bytes) (e : Err) :
    ((addOp S h m num val).1 = .err e → (addOp S h m num val).2.1 = m) ∧
    ((setPayload h m buf).1 = .err e → (setPayload h m buf).2.1 = { m with payload := none }) := by
  refine ⟨fun hf => ?_, fun hf => ?_⟩
  · unfold Heap.addOp at hf ⊢
    split at hf
    · rfl
    · cases hf
  · have hc : (clearPayload h m).1 = { m with payload := none } := by
      unfold Heap.clearPayload
      split
      · rename_i hp; rw [← hp]
      · rfl
    unfold Heap.setPayload at hf ⊢
    simp only at hf ⊢
    split at hf
    · rename_i hb
      rw [if_pos hb]
      split at hf
      · exact hc
      · cases hf
    · cases hf

/-- A message with an option is parsed anew, from a datagram with an option beyond its end. -/
example : let p := run 32 false (start exSmall exMedium) [.create, .addOp 0 3 [1]]
    ∃ m, p.msgs[0]? = some m ∧ (parse 32 false p.heap m [0x41, 1, 0, 1, 7, 0xb1] 6).1 = .err .EBADMSG := ⟨_, rfl, by decide +kernel⟩

/-- Values longer than the buffers. -/
example : (addOp 32 (Heap.init exSmall exMedium) create 11 [1, 2, 3, 4, 5]).1 = .err .ENOMEM ∧
    (setPayload (Heap.init exSmall exMedium) create [1, 2, 3, 4, 5]).1 = .err .ENOMEM := by decide +kernel

/-- C13. After any history, parsing a datagram of `len` bytes into message `i` does not
fail for lack of memory when, without the buffers of that message, each pool has at least
`len` free buffers and these are large enough. -/
theorem C13_parse_enough_memory {ns ls nm lm : Nat} {small medium : Pool} (c : Created ns ls nm lm small medium)
    (S : Nat) (sx : Bool) (cs : List Cmd) (k : Nat) (m : HMsg) (mem : Bytes) (len : Nat) :
    let p := run S sx (start small medium) cs
    p.msgs[k]? = some m → len ≤ mem.length → S ≤ ls → len ≤ lm →
    (held [] p.heap.smallLog).length - m.ownSmall.length + len ≤ ns →
    (held [] p.heap.mediumLog).length - m.ownMedium.length + len ≤ nm →
    (parse S sx p.heap m mem len).1 ≠ .err .ENOMEM := by
  intro p hk hl hS hL hs hm
  obtain ⟨hg, i0⟩ := c.init
  have i := run_inv hg S sx cs (start small medium) i0
  obtain ⟨a1, -⟩ := flatMap_set_perm HMsg.ownSmall p.msgs k m m hk
  obtain ⟨b1, -⟩ := flatMap_set_perm HMsg.ownMedium p.msgs k m m hk
  have i' := i.perm a1 b1
  refine i'.parse_room hg S sx mem len hl ⟨hS, hL, ?_, ?_⟩
  · have : (held [] p.heap.smallLog).length = _ := i'.permS.length_eq
    simp only [List.length_append] at this
    change _ + p.heap.lost.length + len ≤ ns
    change _ = _ + _ + p.heap.lost.length at this
    omega
  · have : (held [] p.heap.mediumLog).length = _ := i'.permM.length_eq
    simp only [List.length_append] at this
    simp only
    omega

example : ∃ m : HMsg, let p := run 32 false (start exSmall exMedium) [.create, .addOp 0 3 [1]]
    p.msgs[0]? = some m ∧ (held [] p.heap.smallLog).length - m.ownSmall.length + 4 ≤ 8 ∧
    (parse 32 false p.heap m [0x40, 1, 0, 1, 0] 4).1 = .ok () := ⟨_, rfl, by decide +kernel, by decide +kernel⟩

end FreeCoAP.Msg.Heap
