import Verif.Tls.LemmasIo

/-! # C96 and C97: reading and writing on a TLS socket -/

namespace FreeCoAP.Tls.Io

/-! ## C96: no byte is lost, repeated or changed -/

/-- C96, in full: whatever GnuTLS and `select` do and whatever calls are made, nothing undefined happens, each call gives bytes as it was asked to, the bytes
that were given together with the ones that can still be read are the stream of the peer, and the bytes that went out are those that the caller was told. -/
def C96_statement : Prop :=
  ∀ (s : Sock) (ops : List Op) (w : World), ∃ rets w', history s ops w = .ok (rets, w') ∧ (∀ x ∈ ops.zip rets, Fit x.1 x.2) ∧
    (ops.zip rets).flatMap (fun x => given x.1 x.2) ++ w'.stream = w.stream ∧
    w'.sent = w.sent ++ (ops.zip rets).flatMap (fun x => taken x.1 x.2)

/-- What a call does to the two streams. -/
theorem call_ok {s : Sock} (hs : s.sd < 1024) (o : Op) (w : World) : ∃ r w', call s w o = .ok (r, w') ∧ Fit o r ∧
    (¬ GaveUp o r → given o r ++ w'.stream = w.stream ∧ w'.sent = w.sent ++ taken o r) ∧
    ∃ lost part, given o r ++ lost ++ w'.stream = w.stream ∧ w'.sent = w.sent ++ taken o r ++ part := by
  cases o with
  | read n =>
    obtain ⟨r, w', e1, ⟨e2, e3⟩, -⟩ := read_ok hs n w.recs s.timeout w
    refine ⟨r, w', e1, ?_⟩
    cases r with
    | bytes b =>
      obtain ⟨k1, k2, k3⟩ := e3
      exact ⟨⟨k1, k2⟩, fun _ => ⟨k3, by rw [e2]; exact (List.append_nil _).symm⟩, [], [], by rw [List.append_nil]; exact k3, by simp [e2, taken]⟩
    | _ => exact ⟨trivial, fun _ => ⟨e3, by rw [e2]; exact (List.append_nil _).symm⟩, [], [], e3, by simp [e2, taken]⟩
  | readFull n =>
    obtain ⟨r, w', e1, e2, e3, -⟩ := readFull_ok hs n n [] w (Nat.zero_le _) (by simp)
    refine ⟨r, w', e1, ?_⟩
    cases r with
    | bytes b =>
      obtain ⟨k1, k3⟩ := e3
      exact ⟨k1, fun _ => ⟨k3, by rw [e2]; exact (List.append_nil _).symm⟩, [], [], by rw [List.append_nil]; exact k3, by simp [e2, taken]⟩
    | _ =>
      obtain ⟨lost, k1, k2⟩ := e3
      exact ⟨trivial, fun h => absurd trivial h, lost, [], k2, by simp [e2, taken]⟩
  | write buf =>
    obtain ⟨r, w', e1, ⟨e2, e3⟩, -⟩ := write_ok hs buf w.recs s.timeout w
    refine ⟨r, w', e1, ?_⟩
    cases r with
    | bytes b =>
      obtain ⟨k1, k2, k3⟩ := e3
      exact ⟨⟨k1, k2⟩, fun _ => ⟨e2, k3⟩, [], [], e2, by rw [List.append_nil]; exact k3⟩
    | _ => exact ⟨trivial, fun _ => ⟨e2, by rw [e3]; exact (List.append_nil _).symm⟩, [], [], e2, by simp [e3, taken]⟩
  | writeFull buf =>
    obtain ⟨r, w', e1, e2, e3, -⟩ := writeFull_ok hs buf.length [] buf w (Nat.le_refl _)
    refine ⟨r, w', e1, ?_⟩
    cases r with
    | bytes b =>
      obtain ⟨k1, k3⟩ := e3
      rw [List.nil_append] at k1
      exact ⟨k1, fun _ => ⟨e2, by rw [k3, ← k1]; rfl⟩, [], [], e2, by rw [List.append_nil, k3, ← k1]; rfl⟩
    | _ =>
      obtain ⟨part, rest, -, k1, k2⟩ := e3
      exact ⟨trivial, fun h => absurd trivial h, [], part, e2, by rw [k2]; exact congrArg (· ++ part) (List.append_nil _).symm⟩
  | rehandshake a b =>
    obtain ⟨r, w', e1, -, e2, e3, -⟩ := rehandshake_ok hs a b w
    refine ⟨r.ret, w', by rw [call, e1]; rfl, ?_, ?_, [], [], ?_, ?_⟩
    · cases r <;> trivial
    · intro _
      exact ⟨by cases r <;> exact e2, by rw [e3]; cases r <;> exact (List.append_nil _).symm⟩
    · cases r <;> exact e2
    · cases r <;> simp [e3, taken, Hand.ret]

/-- C96, for a descriptor that `select` can handle. If no call for an exact number of bytes gives up, then no byte is lost, repeated or changed; and if one does,
then the bytes that were given are still a part of the stream in order. Missing from the full claim: see `C96_violated`. -/
theorem C96_stream_partial (s : Sock) (hs : s.sd < 1024) : ∀ (ops : List Op) (w : World), ∃ rets w', history s ops w = .ok (rets, w') ∧
    rets.length = ops.length ∧ (∀ x ∈ ops.zip rets, Fit x.1 x.2) ∧
    ((ops.zip rets).flatMap (fun x => given x.1 x.2)).Sublist w.stream ∧
    ((∀ x ∈ ops.zip rets, ¬ GaveUp x.1 x.2) →
      (ops.zip rets).flatMap (fun x => given x.1 x.2) ++ w'.stream = w.stream ∧
      w'.sent = w.sent ++ (ops.zip rets).flatMap (fun x => taken x.1 x.2))
  | [], w => ⟨[], w, rfl, rfl, (fun x hx => by cases hx), List.nil_sublist _, fun _ => ⟨rfl, (List.append_nil _).symm⟩⟩
  | o :: os, w => by
    obtain ⟨r, w1, e1, e2, e3, lost, part, e4, e5⟩ := call_ok hs o w
    obtain ⟨rets, w2, g1, g2, g3, g4, g5⟩ := C96_stream_partial s hs os w1
    refine ⟨r :: rets, w2, ?_, by simp [g2], ?_, ?_, ?_⟩
    · unfold history
      rw [e1, Out.bind_ok]
      dsimp only
      rw [g1, Out.bind_ok]
    · intro x hx
      rw [List.zip_cons_cons] at hx
      rcases List.mem_cons.1 hx with rfl | hx
      · exact e2
      · exact g3 x hx
    · rw [List.zip_cons_cons, List.flatMap_cons, ← e4, List.append_assoc]
      exact List.Sublist.append (List.Sublist.refl _) (g4.trans (List.sublist_append_right _ _))
    · intro h
      rw [List.zip_cons_cons] at h
      obtain ⟨k1, k2⟩ := e3 (h (o, r) List.mem_cons_self)
      obtain ⟨k3, k4⟩ := g5 (fun x hx => h x (List.mem_cons_of_mem _ hx))
      rw [List.zip_cons_cons, List.flatMap_cons, List.flatMap_cons, List.append_assoc, k3, k4, k2, List.append_assoc]
      exact ⟨k1, rfl⟩

/-- A socket with a timeout of one second, and the stream 1, 2, 3. -/
def exSock : Sock := ⟨5, 1000000, true⟩
def exWorld (recs : List Rec) (sels : List Sel) : World := ⟨recs, [.again, .success], sels, [1, 2, 3], [], 0⟩

/-- C96 fails: a read of an exact number of bytes that is interrupted forgets the bytes that it has read. -/
theorem C96_violated : ¬ C96_statement := by
  intro h
  obtain ⟨rets, w', e, -, h2, -⟩ := h exSock [.readFull 3, .readFull 1] (exWorld [.data 1, .interrupted, .data 0] [])
  have : history exSock [.readFull 3, .readFull 1] (exWorld [.data 1, .interrupted, .data 0] []) =
      .ok ([.ended .intr, .bytes [3]], ⟨[], [.again, .success], [], [], [], 0⟩) := by decide +kernel
  rw [this] at e
  cases e
  exact absurd h2 (by decide)

/-- A write of an exact number of bytes that is interrupted does not tell how much went out, so that the caller cannot go on: if it begins again, then bytes are
sent twice. -/
theorem C96_violated_write : history exSock [.writeFull [7, 8, 9], .writeFull [7, 8, 9]] (exWorld [.data 1, .interrupted, .data 2] []) =
    .ok ([.ended .intr, .bytes [7, 8, 9]], ⟨[], [.again, .success], [], [1, 2, 3], [7, 8, 7, 8, 9], 0⟩) := by decide +kernel

/-- With a descriptor of 1024 or more, `FD_SET` writes outside the set as soon as there is something to wait for. -/
theorem C96_violated_descriptor (s : Sock) (hs : 1024 ≤ s.sd) (n : Nat) (w : World) (hn : n ≠ 0) (h : ∃ l, w.recs = .again :: l) :
    call s w (.read n) = .ub := by
  obtain ⟨l, h⟩ := h
  show readLoop s n w.recs s.timeout w = .ub
  rw [h]
  unfold readLoop
  rw [if_neg hn]
  dsimp only
  unfold await
  rw [if_pos (show s.sd ≥ FD_SETSIZE from hs)]
  rfl

/-- The peer renegotiates, the socket is not ready at once, and a read of two bytes needs two calls of GnuTLS; nothing gives up. -/
example : ∃ w', history exSock [.readFull 2, .write [7, 8], .read 5] (exWorld [.again, .data 0, .rehandshake, .data 0, .data 0, .data 9]
      [.ready 10, .ready 20, .ready 30]) = .ok ([.bytes [1, 2], .bytes [7], .bytes [3]], w') ∧
    ∀ x ∈ [Op.readFull 2, .write [7, 8], .read 5].zip [Ret.bytes [1, 2], .bytes [7], .bytes [3]], ¬ GaveUp x.1 x.2 := by
  refine ⟨⟨[], [], [], [], [7], 60⟩, by decide +kernel, fun x hx => ?_⟩
  simp only [List.zip_cons_cons, List.zip_nil_right, List.mem_cons, List.not_mem_nil, or_false] at hx
  rcases hx with rfl | rfl | rfl <;> exact fun h => h

/-! ## C97: the timeout -/

/-- C97, in full: a call does not wait for longer than the timeout of the socket. -/
def C97_statement : Prop :=
  ∀ (s : Sock) (o : Op) (w : World) (r : Ret) (w' : World), call s w o = .ok (r, w') → w'.waited ≤ w.waited + s.timeout

/-- C97: a write and a handshake wait for no longer than the timeout. A read waits for no longer than the timeout if the peer does not renegotiate, and for one more
timeout for each renegotiation. The calls for an exact number of bytes can wait for the timeout with each byte. Missing from the full claim: see `C97_violated`. -/
theorem C97_timeout_partial (s : Sock) (hs : s.sd < 1024) (o : Op) (w : World) (r : Ret) (w' : World) (h : call s w o = .ok (r, w')) :
    w'.waited ≤ w.waited + (match o with
      | .read _ => s.timeout * (1 + w.recs.count .rehandshake)
      | .readFull n => s.timeout * (n + w.recs.count .rehandshake)
      | .write _ => s.timeout
      | .writeFull buf => s.timeout * buf.length
      | .rehandshake _ _ => s.timeout) := by
  cases o with
  | read n =>
    obtain ⟨r, w', e1, -, e2⟩ := read_ok hs n w.recs s.timeout w
    have h : read s n w = _ := h
    unfold read at h
    rw [e1] at h
    cases h
    dsimp only
    rw [Nat.mul_add, Nat.mul_one]
    unfold again at e2
    omega
  | readFull n =>
    obtain ⟨r, w', e1, -, -, e2⟩ := readFull_ok hs n n [] w (Nat.zero_le _) (by simp)
    have h : readFull s n n [] w = _ := h
    rw [e1] at h
    cases h
    dsimp only
    rw [Nat.mul_add, Nat.mul_comm s.timeout n]
    unfold again at e2
    omega
  | write buf =>
    obtain ⟨r, w', e1, -, e2⟩ := write_ok hs buf w.recs s.timeout w
    have h : write s buf w = _ := h
    unfold write at h
    rw [e1] at h
    cases h
    exact e2
  | writeFull buf =>
    obtain ⟨r, w', e1, -, -, e2⟩ := writeFull_ok hs buf.length [] buf w (Nat.le_refl _)
    have h : writeFull s buf.length [] buf w = _ := h
    rw [e1] at h
    cases h
    dsimp only
    rw [Nat.mul_comm]
    exact e2
  | rehandshake a b =>
    obtain ⟨r, w', e1, -, -, -, e2⟩ := rehandshake_ok hs a b w
    have h : (rehandshake s a b w >>= fun x => .ok (x.1.ret, x.2)) = _ := h
    rw [e1] at h
    cases h
    exact e2

/-- C97 fails: a peer that renegotiates, and one that takes a response byte by byte, make calls wait for a multiple of the timeout. -/
theorem C97_violated : ¬ C97_statement ∧
    call exSock (exWorld [.rehandshake, .data 0] [.ready 900000, .ready 900000]) (.read 1) =
      .ok (.bytes [1], ⟨[], [], [], [2, 3], [], 1800000⟩) ∧
    call exSock (exWorld [.again, .data 0, .again, .data 0] [.ready 900000, .ready 900000]) (.writeFull [7, 8]) =
      .ok (.bytes [7, 8], ⟨[], [.again, .success], [], [1, 2, 3], [7, 8], 1800000⟩) := by
  have h1 : call exSock (exWorld [.rehandshake, .data 0] [.ready 900000, .ready 900000]) (.read 1) =
      .ok (.bytes [1], ⟨[], [], [], [2, 3], [], 1800000⟩) := by decide +kernel
  have h2 : call exSock (exWorld [.again, .data 0, .again, .data 0] [.ready 900000, .ready 900000]) (.writeFull [7, 8]) =
      .ok (.bytes [7, 8], ⟨[], [.again, .success], [], [1, 2, 3], [7, 8], 1800000⟩) := by decide +kernel
  exact ⟨fun h => absurd (h _ _ _ _ _ h2) (by decide), h1, h2⟩

/-- The hypotheses are met by a write that waits twice. -/
example : exSock.sd < 1024 ∧ call exSock (exWorld [.again, .again, .data 4] [.ready 300000, .ready 300000]) (.write [7, 8]) =
    .ok (.bytes [7, 8], ⟨[], [.again, .success], [], [1, 2, 3], [7, 8], 600000⟩) := ⟨by decide, by decide +kernel⟩

end FreeCoAP.Tls.Io
