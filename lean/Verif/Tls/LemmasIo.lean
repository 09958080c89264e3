import Verif.Tls.SpecIo

/-! # Lemmas about reading and writing on a TLS socket -/

namespace FreeCoAP.Tls.Io

/-- The number of renegotiations that the peer will begin. -/
def again (l : List Rec) : Nat := l.count .rehandshake

/-- What waiting leaves alone, and the time it takes. -/
theorem await_ok {s : Sock} (hs : s.sd < FD_SETSIZE) (c : Code) (tv : Nat) (w : World) :
    ∃ r w', await s c tv w = .ok (r, w') ∧ w'.recs = w.recs ∧ w'.stream = w.stream ∧ w'.sent = w.sent ∧
      (match r with | .left tv' => w'.waited + tv' = w.waited + tv | _ => w'.waited ≤ w.waited + tv) := by
  unfold await
  rw [if_neg (by omega)]
  cases hsel : w.sels with
  | nil => exact ⟨_, _, rfl, rfl, rfl, rfl, by dsimp only; omega⟩
  | cons e l =>
    cases e with
    | ready d => exact ⟨_, _, rfl, rfl, rfl, rfl, by dsimp only; omega⟩
    | timeout => exact ⟨_, _, rfl, rfl, rfl, rfl, by dsimp only; omega⟩
    | intr => exact ⟨_, _, rfl, rfl, rfl, rfl, by dsimp only; omega⟩
    | error => exact ⟨_, _, rfl, rfl, rfl, rfl, by dsimp only; omega⟩

theorem shake_ok {s : Sock} (hs : s.sd < FD_SETSIZE) : ∀ (l : List Shake) (tv : Nat) (w : World),
    ∃ r w', shakeLoop s l tv w = .ok (r, w') ∧ w'.recs = w.recs ∧ w'.stream = w.stream ∧ w'.sent = w.sent ∧ w'.waited ≤ w.waited + tv
  | [], tv, w => ⟨_, _, rfl, rfl, rfl, rfl, by dsimp only; omega⟩
  | .success :: l, tv, w => ⟨_, _, rfl, rfl, rfl, rfl, by dsimp only; omega⟩
  | .warning :: l, tv, w => ⟨_, _, rfl, rfl, rfl, rfl, by dsimp only; omega⟩
  | .interrupted :: l, tv, w => ⟨_, _, rfl, rfl, rfl, rfl, by dsimp only; omega⟩
  | .fatal :: l, tv, w => ⟨_, _, rfl, rfl, rfl, rfl, by dsimp only; omega⟩
  | .again :: l, tv, w => by
    obtain ⟨r, w1, e1, e2, e3, e4, e5⟩ := await_ok hs .handshakeError tv { w with shakes := l }
    unfold shakeLoop
    rw [e1, Out.bind_ok]
    cases r with
    | left tv' =>
      obtain ⟨r2, w2, g1, g2, g3, g4, g5⟩ := shake_ok hs l tv' w1
      dsimp only at e2 e3 e4 e5 ⊢
      exact ⟨r2, w2, g1, by rw [g2, e2], by rw [g3, e3], by rw [g4, e4], by omega⟩
    | ended c => exact ⟨_, _, rfl, e2, e3, e4, e5⟩
    | waiting => exact ⟨_, _, rfl, e2, e3, e4, e5⟩

theorem handshake_ok {s : Sock} (hs : s.sd < FD_SETSIZE) (w : World) :
    ∃ r w', handshake s w = .ok (r, w') ∧ w'.recs = w.recs ∧ w'.stream = w.stream ∧ w'.sent = w.sent ∧ w'.waited ≤ w.waited + s.timeout :=
  shake_ok hs _ _ _

theorem rehandshake_ok {s : Sock} (hs : s.sd < FD_SETSIZE) (a b : Bool) (w : World) :
    ∃ r w', rehandshake s a b w = .ok (r, w') ∧ w'.recs = w.recs ∧ w'.stream = w.stream ∧ w'.sent = w.sent ∧ w'.waited ≤ w.waited + s.timeout := by
  unfold rehandshake
  split
  · obtain ⟨r, w', e1, e2⟩ := handshake_ok hs w
    rw [e1, Out.bind_ok]
    cases r with
    | ok => exact ⟨_, _, rfl, e2⟩
    | waiting => exact ⟨_, _, rfl, e2⟩
    | ended c => cases c <;> exact ⟨_, _, rfl, e2⟩
  · exact ⟨_, _, rfl, rfl, rfl, rfl, by omega⟩

/-- What a read of at most `len` bytes does to the stream. -/
def Reads (len : Nat) (w : World) (r : Ret) (w' : World) : Prop :=
  w'.sent = w.sent ∧
  match r with
  | .bytes b => b ≠ [] ∧ b.length ≤ len ∧ b ++ w'.stream = w.stream
  | _ => w'.stream = w.stream

theorem Reads.same {len : Nat} {w w0 : World} {r : Ret} {w' : World} (h1 : w0.stream = w.stream) (h2 : w0.sent = w.sent) (h : Reads len w0 r w') :
    Reads len w r w' := by
  unfold Reads at *
  rw [h1, h2] at h
  exact h

theorem Reads.none {len : Nat} {w : World} {r : Ret} {w' : World} (h1 : w'.stream = w.stream) (h2 : w'.sent = w.sent) (h : ∀ b, r ≠ .bytes b) :
    Reads len w r w' := by
  cases r with
  | bytes b => exact absurd rfl (h b)
  | _ => exact ⟨h2, h1⟩

theorem read_ok {s : Sock} (hs : s.sd < FD_SETSIZE) (len : Nat) : ∀ (l : List Rec) (tv : Nat) (w : World),
    ∃ r w', readLoop s len l tv w = .ok (r, w') ∧ Reads len w r w' ∧
      w'.waited + s.timeout * again w'.recs ≤ w.waited + tv + s.timeout * again l
  | [], tv, w => ⟨_, _, rfl, .none rfl rfl (fun _ h => nomatch h), by dsimp only [again]; simp⟩
  | e :: l, tv, w => by
    have hstep : ∀ w0 : World, w0.recs = l → ∃ r w', (await s .readError tv w0 >>= fun r =>
        match r.1 with
        | .left tv => readLoop s len l tv r.2
        | .ended c => .ok (.ended c, r.2)
        | .waiting => .ok (.waiting, r.2)) = .ok (r, w') ∧ Reads len w0 r w' ∧
        w'.waited + s.timeout * again w'.recs ≤ w0.waited + tv + s.timeout * again l := by
      intro w0 h0
      obtain ⟨r, w1, e1, e2, e3, e4, e5⟩ := await_ok hs .readError tv w0
      rw [e1, Out.bind_ok]
      cases r with
      | left tv' =>
        obtain ⟨r2, w2, g1, g2, g3⟩ := read_ok hs len l tv' w1
        dsimp only at e5 ⊢
        exact ⟨r2, w2, g1, g2.same e3 e4, by omega⟩
      | ended c => exact ⟨_, _, rfl, .none e3 e4 (fun _ h => nomatch h), by dsimp only at e5 ⊢; rw [e2, h0]; omega⟩
      | waiting => exact ⟨_, _, rfl, .none e3 e4 (fun _ h => nomatch h), by dsimp only at e5 ⊢; rw [e2, h0]; omega⟩
    have hcons : again l ≤ again (e :: l) := List.count_le_count_cons
    have hmul : s.timeout * again l ≤ s.timeout * again (e :: l) := Nat.mul_le_mul_left _ hcons
    have hend : ∀ c, ∃ r w', (.ok (.ended c, { w with recs := l }) : Out (Ret × World)) = .ok (r, w') ∧ Reads len w r w' ∧
        w'.waited + s.timeout * again w'.recs ≤ w.waited + tv + s.timeout * again (e :: l) :=
      fun c => ⟨_, _, rfl, .none rfl rfl (fun _ h => nomatch h), by dsimp only; omega⟩
    have hagain : ∃ r w', (await s .readError tv { w with recs := l } >>= fun r =>
        match r.1 with
        | .left tv => readLoop s len l tv r.2
        | .ended c => .ok (.ended c, r.2)
        | .waiting => .ok (.waiting, r.2)) = .ok (r, w') ∧ Reads len w r w' ∧
        w'.waited + s.timeout * again w'.recs ≤ w.waited + tv + s.timeout * again (e :: l) := by
      obtain ⟨r, w', g1, g2, g3⟩ := hstep { w with recs := l } rfl
      exact ⟨r, w', g1, g2.same rfl rfl, by dsimp only at g3; omega⟩
    unfold readLoop
    dsimp only
    by_cases hlen : len = 0
    · rw [if_pos hlen]
      exact hend _
    · rw [if_neg hlen]
      cases e with
      | data k =>
        dsimp only
        by_cases hst : w.stream = []
        · rw [if_pos hst]
          exact hagain
        · rw [if_neg hst]
          refine ⟨_, _, rfl, ⟨rfl, ?_, ?_, List.take_append_drop _ _⟩, by dsimp only; omega⟩
          · intro h
            rw [List.take_eq_nil_iff] at h
            rcases h with h | h
            · omega
            · exact hst h
          · rw [List.length_take]; omega
      | eof => exact ⟨_, _, rfl, .none rfl rfl (fun _ h => nomatch h), by dsimp only; omega⟩
      | interrupted => exact hend _
      | fatal => exact hend _
      | again => exact hagain
      | rehandshake =>
        have hc : again (.rehandshake :: l) = again l + 1 := List.count_cons_self
        obtain ⟨r, w1, e1, e2, e3, e4, e5⟩ := handshake_ok hs { w with recs := l }
        dsimp only at e2 e3 e4 e5 ⊢
        rw [e1, Out.bind_ok, hc, Nat.mul_succ]
        cases r with
        | ok =>
          obtain ⟨r2, w2, g1, g2, g3⟩ := hstep w1 e2
          exact ⟨r2, w2, g1, g2.same e3 e4, by omega⟩
        | ended c => exact ⟨_, _, rfl, .none e3 e4 (fun _ h => nomatch h), by dsimp only; rw [e2]; omega⟩
        | waiting => exact ⟨_, _, rfl, .none e3 e4 (fun _ h => nomatch h), by dsimp only; rw [e2]; omega⟩

theorem readFull_ok {s : Sock} (hs : s.sd < FD_SETSIZE) (len : Nat) : ∀ (fuel : Nat) (got : Bytes) (w : World), got.length ≤ len →
    len ≤ got.length + fuel → ∃ r w', readFull s len fuel got w = .ok (r, w') ∧ w'.sent = w.sent ∧
      (match r with
      | .bytes b => b.length = len ∧ b ++ w'.stream = got ++ w.stream
      | _ => ∃ lost, got.length + lost.length < len ∧ lost ++ w'.stream = w.stream) ∧
      w'.waited + s.timeout * again w'.recs ≤ w.waited + fuel * s.timeout + s.timeout * again w.recs
  | 0, got, w, h, h' => ⟨_, _, rfl, rfl, ⟨by omega, rfl⟩, by omega⟩
  | fuel + 1, got, w, h, h' => by
    unfold readFull
    rw [Nat.succ_mul]
    by_cases hl : got.length < len
    · rw [if_pos hl]
      obtain ⟨r, w1, e1, ⟨e2, e3⟩, e4⟩ := read_ok hs (len - got.length) w.recs s.timeout w
      unfold read
      rw [e1, Out.bind_ok]
      have hend : ∀ r, (∀ b, r ≠ .bytes b) → w1.stream = w.stream → ∃ r' w', (.ok (r, w1) : Out (Ret × World)) = .ok (r', w') ∧ w'.sent = w.sent ∧
          (match r' with
          | .bytes b => b.length = len ∧ b ++ w'.stream = got ++ w.stream
          | _ => ∃ lost, got.length + lost.length < len ∧ lost ++ w'.stream = w.stream) ∧
          w'.waited + s.timeout * again w'.recs ≤ w.waited + (fuel * s.timeout + s.timeout) + s.timeout * again w.recs := by
        intro r hr hst
        refine ⟨r, w1, rfl, e2, ?_, by omega⟩
        cases r with
        | bytes b => exact absurd rfl (hr b)
        | _ => exact ⟨[], by simp; omega, by rw [List.nil_append]; exact hst⟩
      cases r with
      | bytes b =>
        obtain ⟨e5, e6, e7⟩ := e3
        have hpos := List.length_pos_iff.2 e5
        obtain ⟨r2, w2, g1, g2, g3, g4⟩ := readFull_ok hs len fuel (got ++ b) w1 (by rw [List.length_append]; omega) (by rw [List.length_append]; omega)
        refine ⟨r2, w2, g1, by rw [g2, e2], ?_, by omega⟩
        cases r2 with
        | bytes b2 => exact ⟨g3.1, by rw [g3.2, List.append_assoc, e7]⟩
        | _ =>
          obtain ⟨lost, k1, k2⟩ := g3
          rw [List.length_append] at k1
          exact ⟨b ++ lost, by rw [List.length_append]; omega, by rw [List.append_assoc, k2, e7]⟩
      | closed => exact hend _ (fun _ h => nomatch h) e3
      | ended c => exact hend _ (fun _ h => nomatch h) e3
      | waiting => exact hend _ (fun _ h => nomatch h) e3
    · rw [if_neg hl]
      exact ⟨_, _, rfl, rfl, ⟨by omega, rfl⟩, by omega⟩

/-- What a write of `buf` does. -/
def Writes (buf : Bytes) (w : World) (r : Ret) (w' : World) : Prop :=
  w'.stream = w.stream ∧
  match r with
  | .bytes b => (b ≠ [] ∨ buf = []) ∧ (∃ rest, buf = b ++ rest) ∧ w'.sent = w.sent ++ b
  | _ => w'.sent = w.sent

theorem Writes.same {buf : Bytes} {w w0 : World} {r : Ret} {w' : World} (h1 : w0.stream = w.stream) (h2 : w0.sent = w.sent) (h : Writes buf w0 r w') :
    Writes buf w r w' := by
  unfold Writes at *
  rw [h1, h2] at h
  exact h

theorem Writes.none {buf : Bytes} {w : World} {r : Ret} {w' : World} (h1 : w'.stream = w.stream) (h2 : w'.sent = w.sent) (h : ∀ b, r ≠ .bytes b) :
    Writes buf w r w' := by
  cases r with
  | bytes b => exact absurd rfl (h b)
  | _ => exact ⟨h1, h2⟩

theorem write_ok {s : Sock} (hs : s.sd < FD_SETSIZE) (buf : Bytes) : ∀ (l : List Rec) (tv : Nat) (w : World),
    ∃ r w', writeLoop s buf l tv w = .ok (r, w') ∧ Writes buf w r w' ∧ w'.waited ≤ w.waited + tv
  | [], tv, w => ⟨_, _, rfl, .none rfl rfl (fun _ h => nomatch h), by dsimp only; omega⟩
  | .data k :: l, tv, w => by
    refine ⟨_, _, rfl, ⟨rfl, ?_, ⟨_, (List.take_append_drop _ _).symm⟩, rfl⟩, by dsimp only; omega⟩
    cases buf with
    | nil => exact .inr rfl
    | cons x buf => exact .inl (fun h => nomatch h)
  | .eof :: l, tv, w => ⟨_, _, rfl, .none rfl rfl (fun _ h => nomatch h), by dsimp only; omega⟩
  | .interrupted :: l, tv, w => ⟨_, _, rfl, .none rfl rfl (fun _ h => nomatch h), by dsimp only; omega⟩
  | .rehandshake :: l, tv, w => ⟨_, _, rfl, .none rfl rfl (fun _ h => nomatch h), by dsimp only; omega⟩
  | .fatal :: l, tv, w => ⟨_, _, rfl, .none rfl rfl (fun _ h => nomatch h), by dsimp only; omega⟩
  | .again :: l, tv, w => by
    obtain ⟨r, w1, e1, e2, e3, e4, e5⟩ := await_ok hs .writeError tv { w with recs := l }
    unfold writeLoop
    rw [e1, Out.bind_ok]
    cases r with
    | left tv' =>
      obtain ⟨r2, w2, g1, g2, g3⟩ := write_ok hs buf l tv' w1
      dsimp only at e5 ⊢
      exact ⟨r2, w2, g1, g2.same e3 e4, by omega⟩
    | ended c => exact ⟨_, _, rfl, .none e3 e4 (fun _ h => nomatch h), e5⟩
    | waiting => exact ⟨_, _, rfl, .none e3 e4 (fun _ h => nomatch h), e5⟩

theorem writeFull_ok {s : Sock} (hs : s.sd < FD_SETSIZE) : ∀ (fuel : Nat) (done todo : Bytes) (w : World), todo.length ≤ fuel →
    ∃ r w', writeFull s fuel done todo w = .ok (r, w') ∧ w'.stream = w.stream ∧
      (match r with
      | .bytes b => b = done ++ todo ∧ w'.sent = w.sent ++ todo
      | _ => ∃ part rest, rest ≠ [] ∧ todo = part ++ rest ∧ w'.sent = w.sent ++ part) ∧
      w'.waited ≤ w.waited + fuel * s.timeout
  | 0, done, todo, w, h => by
    have : todo = [] := List.length_eq_zero_iff.1 (by omega)
    subst this
    exact ⟨_, _, rfl, rfl, ⟨(List.append_nil _).symm, (List.append_nil _).symm⟩, by omega⟩
  | fuel + 1, done, todo, w, h => by
    unfold writeFull
    rw [Nat.succ_mul]
    by_cases hl : todo = []
    · subst hl
      exact ⟨_, _, rfl, rfl, ⟨(List.append_nil _).symm, (List.append_nil _).symm⟩, by omega⟩
    · rw [if_pos hl]
      obtain ⟨r, w1, e1, ⟨e2, e3⟩, e4⟩ := write_ok hs todo w.recs s.timeout w
      unfold write
      rw [e1, Out.bind_ok]
      have hend : ∀ r, (∀ b, r ≠ .bytes b) → w1.sent = w.sent → ∃ r' w', (.ok (r, w1) : Out (Ret × World)) = .ok (r', w') ∧ w'.stream = w.stream ∧
          (match r' with
          | .bytes b => b = done ++ todo ∧ w'.sent = w.sent ++ todo
          | _ => ∃ part rest, rest ≠ [] ∧ todo = part ++ rest ∧ w'.sent = w.sent ++ part) ∧
          w'.waited ≤ w.waited + (fuel * s.timeout + s.timeout) := by
        intro r hr hst
        refine ⟨r, w1, rfl, e2, ?_, by omega⟩
        cases r with
        | bytes b => exact absurd rfl (hr b)
        | _ => exact ⟨[], todo, hl, rfl, by rw [List.append_nil]; exact hst⟩
      cases r with
      | bytes b =>
        obtain ⟨e5, ⟨rest, e6⟩, e7⟩ := e3
        have hb : b ≠ [] := e5.resolve_right hl
        have hpos := List.length_pos_iff.2 hb
        have hdrop : todo.drop b.length = rest := by rw [e6, List.drop_left]
        have hlen := congrArg List.length e6
        rw [List.length_append] at hlen
        obtain ⟨r2, w2, g1, g2, g3, g4⟩ := writeFull_ok hs fuel (done ++ b) rest w1 (by omega)
        dsimp only
        rw [hdrop]
        refine ⟨r2, w2, g1, by rw [g2, e2], ?_, by omega⟩
        cases r2 with
        | bytes b2 => exact ⟨by rw [g3.1, e6, List.append_assoc], by rw [g3.2, e7, e6, List.append_assoc]⟩
        | _ =>
          obtain ⟨part, rest', k0, k1, k2⟩ := g3
          exact ⟨b ++ part, rest', k0, by rw [e6, k1, List.append_assoc], by rw [k2, e7, List.append_assoc]⟩
      | closed => exact hend _ (fun _ h => nomatch h) e3
      | ended c => exact hend _ (fun _ h => nomatch h) e3
      | waiting => exact hend _ (fun _ h => nomatch h) e3

end FreeCoAP.Tls.Io
