import Verif.Client.SpecEnds
import Verif.Client.LemmasBlock

/-!
# When the calls of the client end: lemmas
-/

namespace FreeCoAP.Client.Ends

open FreeCoAP.Msg

/-- After how many expiries of the timer a waiting exchange has ended. -/
def left (w : Wait) : Nat := if w.phase = .ack then 4 - w.numRetrans + 1 else 1

theorem left_pos (w : Wait) : 1 ≤ left w := by unfold left; split <;> omega

theorem bad_done {i : Input} {m : Msg} {o : List Obs} {w : Wait} : bad i m ≠ .ok (o, .go w) := by
  unfold bad
  intro h
  split at h <;> cases h

theorem skip_go {i : Input} {m : Msg} {o : List Obs} {w w' : Wait} (h : skip i w m = .ok (o, .go w')) : w' = w := by
  unfold skip at h
  split at h <;> cases h
  rfl

theorem piggybacked_done {px : Bool} {i : Input} {m : Msg} {o : List Obs} {w : Wait} : piggybacked px i m ≠ .ok (o, .go w) := by
  unfold piggybacked
  intro h
  split at h
  · exact bad_done h
  · cases h

theorem sepResponse_done {px : Bool} {i : Input} {m : Msg} {o : List Obs} {w : Wait} : sepResponse px i m ≠ .ok (o, .go w) := by
  unfold sepResponse
  intro h
  split at h
  · split at h
    · exact bad_done h
    · split at h <;> cases h
  · split at h
    · split at h
      · exact bad_done h
      · cases h
    · exact bad_done h

theorem handle_go {px : Bool} {req m : Msg} {w w' : Wait} {i : Input} {o : List Obs} (h : handle px req w i m = .ok (o, .go w')) : left w' ≤ left w := by
  unfold handle at h
  split at h
  · split at h
    · split at h
      · cases h; exact Nat.le_refl _
      · split at h
        · cases h
        · exact absurd h bad_done
    · split at h
      · cases h
        exact left_pos w
      · split at h
        · exact absurd h piggybacked_done
        · split at h
          · cases h
          · exact absurd h bad_done
    · split at h
      · cases h
      · exact absurd h bad_done
  · split at h
    · exact absurd h sepResponse_done
    · rw [skip_go h]
      exact Nat.le_refl _

theorem expire_go {req : Msg} {w w' : Wait} {i : Input} {o : List Obs} (h : expire req w i = .ok (o, .go w')) : left w' + 1 ≤ left w := by
  unfold expire at h
  split at h
  · rename_i hp
    unfold updateAckTimer at h
    by_cases hn : w.numRetrans ≥ MAX_RETRANSMIT
    · rw [if_pos hn] at h
      cases h
    · rw [if_neg hn] at h
      have hn : w.numRetrans < 4 := Nat.lt_of_not_le hn
      cases he : i.timerErr with
      | some e => rw [he] at h; cases h
      | none =>
        rw [he] at h
        simp only at h
        split at h <;> cases h
        unfold left
        rw [if_pos hp, if_pos hp]
        simp only
        omega
  · cases h

theorem step_go {sx px : Bool} {req : Msg} {w w' : Wait} {i : Input} {o : List Obs} (h : step sx px req w i = .ok (o, .go w')) :
    left w' + (if i.ev = .timer then 1 else 0) ≤ left w := by
  unfold step at h
  split at h
  · cases h
  · rename_i he
    rw [if_pos he]
    exact expire_go h
  · rename_i he
    rw [he, if_neg (by intro h; cases h)]
    split at h <;> cases h
    exact Nat.le_refl _
  · rename_i d he
    rw [he, if_neg (by intro h; cases h)]
    split at h
    · cases h
    · cases h
    · split at h <;> cases h
      exact Nat.le_refl _
    · split at h
      · rename_i hh
        cases h
        exact handle_go hh
      · cases h
      · cases h

theorem wait_none {sx px : Bool} {req : Msg} : ∀ {is : List Input} {w : Wait} {o : List Obs}, wait sx px req w is = .ok (o, none) →
    expiries is + 1 ≤ left w
  | [], w, _, _ => left_pos w
  | i :: is, w, o, h => by
    unfold wait at h
    split at h
    · cases h
    · cases h
    · cases h
    · rename_i hs
      have g := step_go hs
      split at h
      · rename_i hw
        cases h
        have := wait_none hw
        have hc : expiries (i :: is) = expiries is + (if i.ev = .timer then 1 else 0) := by
          unfold expiries
          rw [List.countP_cons]
          simp only [decide_eq_true_eq]
        omega
      · cases h
      · cases h

theorem startWait_left (x : XEnv) (type : Nat) : left (startWait x type).2 ≤ 5 := by
  unfold startWait
  split
  · exact Nat.le_refl _
  · show 1 ≤ 5
    omega

theorem exchange_none {sx px : Bool} {x : XEnv} {req : Msg} {o : List Obs} (h : exchange sx px x req = .ok (o, none)) : expiries x.inputs ≤ 4 := by
  unfold exchange at h
  split at h
  · cases h
  split at h
  · cases h
  · cases h
  split at h
  · cases h
  · cases h
  split at h
  · cases h
  · cases h
  · cases h
  split at h
  · simp only at h
    split at h
    · rename_i hw
      cases h
      have := wait_none hw
      have := startWait_left x
      grind
    · cases h
    · cases h
  · cases h

theorem size_ge {size szx : Nat} (h : calcBlockSzx size = .ok szx) : 16 ≤ size := by
  rw [(calcBlockSzx_ok.1 h).2, Nat.pow_add]
  have := Nat.two_pow_pos szx
  omega

theorem take2_next {method size2 start bodyLen : Nat} {r : Msg} {body body' : Bytes} {s z n : Nat}
    (h : take2 method size2 start r body bodyLen = .ok (.next s z n body')) : start + 16 ≤ n ∧ n ≤ bodyLen := by
  unfold take2 at h
  split at h
  · cases h
  split at h
  · cases h
  cases hp : parseBlockOp BLOCK2 r.ops with
  | ub => rw [hp] at h; cases h
  | err _ => rw [hp] at h; cases h
  | ok v =>
    rw [hp] at h
    cases v with
    | none => cases h
    | some blk =>
      simp only at h
      generalize (if blk.size < size2 then blk.size else size2) = size1 at h
      split at h
      · cases h
      cases hz : calcBlockSzx size1 with
      | ub => rw [hz] at h; cases h
      | err _ => rw [hz] at h; cases h
      | ok szx =>
        rw [hz] at h
        simp only at h
        split at h
        · cases h
        split at h
        · cases h
        rename_i hm
        split at h
        · cases h
        cases hw : wrs body start r.payload with
        | ub => rw [hw] at h; cases h
        | err _ => rw [hw] at h; cases h
        | ok b' =>
          rw [hw] at h
          simp only at h
          split at h
          · cases h
          rename_i hmore
          cases h
          have := size_ge hz
          have hl : r.payload.length = s := Classical.byContradiction fun hl => hm ⟨by simpa using hmore, hl⟩
          omega

/-- The number of exchanges of a download, and that it goes on only for want of them. -/
theorem blockwise2_rounds {sx px : Bool} {req : Msg} {bodyLen : Nat} : ∀ (bs : List BEnv) (size2 szx start : Nat) (resp : Msg) (body : Bytes) (res : BRes),
    start ≤ bodyLen → blockwise2 sx px req bodyLen size2 szx start resp body bs = .ok res →
    16 * res.obs.length ≤ bodyLen - start + 16 ∧ (Timed bs → res.ret = none → res.obs.length = bs.length)
  | [], _, _, _, _, _, res, hs, h => by cases h; exact ⟨Nat.zero_le _, fun _ _ => rfl⟩
  | b :: bs, size2, szx, start, resp, body, res, hs, h => by
    have e : ∀ {o : List Obs} {r : Except Err Nat} {m : Msg} {c : Bytes}, endRound o r m c = .ok res →
        16 * res.obs.length ≤ bodyLen - start + 16 ∧ (Timed (b :: bs) → res.ret = none → res.obs.length = (b :: bs).length) := by
      intro o r m c h
      cases h
      exact ⟨by simp, fun _ h => by cases h⟩
    unfold blockwise2 at h
    split at h
    · cases h
    · cases h
    · exact e h
    split at h
    · cases h
    · cases h
    · rename_i hx
      cases h
      refine ⟨by simp, fun ht => ?_⟩
      have := exchange_none hx
      have := ht b List.mem_cons_self
      omega
    · exact e h
    split at h
    · cases h
    · cases h
    · exact e h
    rename_i ht
    obtain ⟨h1, h2⟩ := take2_next ht
    unfold BRes.cons at h
    split at h
    · rename_i h'
      cases h
      obtain ⟨g1, g2⟩ := blockwise2_rounds bs _ _ _ _ _ _ h2 h'
      refine ⟨by simp only [List.length_cons]; omega, fun ht hr => ?_⟩
      have := g2 (fun b hb => ht b (List.mem_cons_of_mem _ hb)) hr
      simp only [List.length_cons]
      omega
    · cases h
    · cases h

theorem message1_size {b : BEnv} {req m : Msg} {size1 size2 szx start bodyLen n : Nat} {body : Bytes}
    (h : message1 b req size1 size2 szx start body bodyLen = .ok (.ok (m, n))) (hs : start + n < bodyLen) : n = size1 := by
  unfold message1 at h
  split at h
  · cases h
  · cases h
  split at h
  · cases h
  simp only at h
  split at h
  · cases h
  · cases h
  split at h
  · cases h
  split at h
  · cases h
  · cases h
  split at h
  · cases h
  · cases h
  split at h
  · cases h
  cases h
  split at hs <;> rename_i hd
  · rw [if_pos hd]
  · omega

/-- The number of exchanges of an upload, and that it goes on only for want of them. -/
theorem blockwise1_rounds {sx px : Bool} {req : Msg} {size2 bodyLen : Nat} {body : Bytes} :
    ∀ (bs : List BEnv) (size1 szx start : Nat) (resp : Msg) (res : BRes), 16 ≤ size1 →
    blockwise1 sx px req size2 body bodyLen size1 szx start resp bs = .ok res →
    16 * res.obs.length ≤ bodyLen - start + 16 ∧ (Timed bs → res.ret = none → res.obs.length = bs.length)
  | [], _, _, _, _, res, _, h => by cases h; exact ⟨Nat.zero_le _, fun _ _ => rfl⟩
  | b :: bs, size1, szx, start, resp, res, h16, h => by
    have e : ∀ {o : List Obs} {r : Except Err Nat} {m : Msg} {c : Bytes}, endRound o r m c = .ok res →
        16 * res.obs.length ≤ bodyLen - start + 16 ∧ (Timed (b :: bs) → res.ret = none → res.obs.length = (b :: bs).length) := by
      intro o r m c h
      cases h
      exact ⟨by simp, fun _ h => by cases h⟩
    unfold blockwise1 at h
    split at h
    · cases h
    · cases h
    · exact e h
    rename_i hm
    split at h
    · cases h
    · cases h
    · rename_i hx
      cases h
      refine ⟨by simp, fun ht => ?_⟩
      have := exchange_none hx
      have := ht b List.mem_cons_self
      omega
    · exact e h
    split at h
    · exact e h
    split at h
    · exact e h
    split at h
    · cases h
    · exact e h
    · exact e h
    rename_i blk _
    simp only at h
    generalize (if blk.size < size1 then blk.size else size1) = size at h
    split at h
    · exact e h
    split at h
    · cases h
    · exact e h
    rename_i hz
    split at h
    · exact e h
    rename_i hlt
    have hn := message1_size hm (by omega)
    unfold BRes.cons at h
    split at h
    · rename_i h'
      cases h
      obtain ⟨g1, g2⟩ := blockwise1_rounds bs _ _ _ _ _ (size_ge hz) h'
      refine ⟨by simp only [List.length_cons]; omega, fun ht hr => ?_⟩
      have := g2 (fun b hb => ht b (List.mem_cons_of_mem _ hb)) hr
      simp only [List.length_cons]
      omega
    · cases h
    · cases h

theorem upload_rounds {sx px : Bool} {req resp : Msg} {size1 size2 bodyLen : Nat} {body : Bytes} {bs : List BEnv} {res : BRes}
    (h : upload sx px req resp size1 size2 body bodyLen bs = .ok res) :
    res.obs.length ≤ bodyLen / 16 + 1 ∧ (Timed bs → res.ret = none → res.obs.length = bs.length) := by
  unfold upload at h
  split at h
  · cases h; exact ⟨Nat.zero_le _, fun _ h => by cases h⟩
  split at h
  · cases h
  · cases h; exact ⟨Nat.zero_le _, fun _ h => by cases h⟩
  rename_i hz
  split at h
  · cases h
  · cases h; exact ⟨Nat.zero_le _, fun _ h => by cases h⟩
  obtain ⟨h1, h2⟩ := blockwise1_rounds bs _ _ _ _ _ (size_ge hz) h
  exact ⟨by omega, h2⟩

theorem download_rounds {sx px : Bool} {req resp : Msg} {size2 bodyLen : Nat} {body : Bytes} {have' : Bool} {bs : List BEnv} {res : BRes}
    (h : download sx px req resp size2 body bodyLen have' bs = .ok res) :
    res.obs.length ≤ bodyLen / 16 + (if have' = true then 0 else 1) ∧ (Timed bs → res.ret = none → res.obs.length = bs.length) := by
  unfold download at h
  split at h
  · cases h; exact ⟨Nat.zero_le _, fun _ h => by cases h⟩
  split at h
  · cases h
  · cases h; exact ⟨Nat.zero_le _, fun _ h => by cases h⟩
  split at h
  · rename_i hh
    obtain ⟨h1, h2⟩ := blockwise2_rounds bs _ _ _ _ _ _ (Nat.zero_le _) h
    rw [hh]
    exact ⟨by simp; omega, h2⟩
  · rename_i hh
    split at h
    · cases h
    · cases h
    · cases h; exact ⟨Nat.zero_le _, fun _ h => by cases h⟩
    · rename_i ht
      obtain ⟨h3, h4⟩ := take2_next ht
      obtain ⟨h1, h2⟩ := blockwise2_rounds bs _ _ _ _ _ _ h4 h
      exact ⟨by split <;> omega, h2⟩

/-! ## Time -/

/-- The time for which the timer is started. -/
def total (o : List Obs) : Nat := (arms o).sum

theorem total_append (o p : List Obs) : total (o ++ p) = total o + total p := by
  unfold total
  rw [arms_append, List.sum_append]

theorem send_total {e r : Option Err} {m : Msg} {o : List Obs} (h : send e m = .ok (o, r)) : total o = 0 := by
  unfold send at h
  split at h
  · cases h
  · cases h; rfl
  · split at h <;> cases h <;> rfl

theorem reject_total {i : Input} {r : Option Err} {m : Msg} {o : List Obs} (h : reject i m = .ok (o, r)) : total o = 0 := by
  unfold reject at h
  split at h
  · exact send_total h
  · cases h; rfl

theorem bad_total {i : Input} {m : Msg} {o : List Obs} {n : Next} (h : bad i m = .ok (o, n)) : total o = 0 := by
  unfold bad at h
  split at h
  · rename_i hr
    cases h
    exact reject_total hr
  · cases h
  · cases h

theorem skip_total {i : Input} {w : Wait} {m : Msg} {o : List Obs} {n : Next} (h : skip i w m = .ok (o, n)) : total o = 0 := by
  unfold skip at h
  split at h
  · rename_i hr
    cases h
    exact reject_total hr
  · rename_i hr
    cases h
    exact reject_total hr
  · cases h
  · cases h

theorem piggybacked_total {px : Bool} {i : Input} {m : Msg} {o : List Obs} {n : Next} (h : piggybacked px i m = .ok (o, n)) : total o = 0 := by
  unfold piggybacked at h
  split at h
  · exact bad_total h
  · cases h; rfl

theorem sepResponse_total {px : Bool} {i : Input} {m : Msg} {o : List Obs} {n : Next} (h : sepResponse px i m = .ok (o, n)) : total o = 0 := by
  unfold sepResponse at h
  split at h
  · split at h
    · exact bad_total h
    · split at h
      · rename_i hr
        cases h
        exact send_total hr
      · rename_i hr
        cases h
        exact send_total hr
      · cases h
      · cases h
  · split at h
    · split at h
      · exact bad_total h
      · cases h; rfl
    · exact bad_total h

theorem recv_total {sx : Bool} {i : Input} {d : Bytes} {o : List Obs} {r : Except Err Msg} (h : recv sx i d = .ok (o, r)) : total o = 0 := by
  unfold recv at h
  split at h
  · cases h; rfl
  split at h
  · cases h
  · cases h; rfl
  split at h
  · split at h
    · rename_i hf
      cases h
      unfold formatError at hf
      split at hf
      · cases hf
      · cases hf; rfl
      · split at hf
        · split at hf
          · rename_i hs
            cases hf
            exact send_total hs
          · cases hf
          · cases hf
        · cases hf; rfl
    · cases h
    · cases h
  · cases h; rfl

/-- The timer of a confirmable request was started for `T` milliseconds at first. -/
def Inv (T : Nat) (w : Wait) : Prop := w.phase = .ack → w.timeout = T * 2 ^ w.numRetrans ∧ w.numRetrans ≤ 4

/-- For how long the timer may still be started. -/
def rest (T : Nat) (w : Wait) : Nat := if w.phase = .ack then 32 * T - 2 * w.timeout + 30000 else 0

/-- For how long the timer may still be started after a step. -/
def after (T : Nat) : Next → Nat
  | .go w => rest T w
  | .done _ => 0

/-- The invariant after a step. -/
def InvN (T : Nat) : Next → Prop
  | .go w => Inv T w
  | .done _ => True

theorem startResp_total (e : Option Err) (p : Phase) (n : Nat) : total (startResp e p n).1 ≤ 30000 := by
  unfold startResp
  cases e with
  | none => exact Nat.le_refl 30000
  | some _ => exact Nat.zero_le _

theorem handle_time {px : Bool} {req m : Msg} {w : Wait} {i : Input} {o : List Obs} {n : Next} {T : Nat} (hI : Inv T w)
    (h : handle px req w i m = .ok (o, n)) : InvN T n ∧ total o + after T n ≤ rest T w := by
  have quiet : ∀ {o : List Obs} {n : Next}, total o = 0 → (∀ w', n = .go w' → w' = w) → InvN T n ∧ total o + after T n ≤ rest T w := by
    intro o n h0 hn
    cases n with
    | go w' =>
      cases hn w' rfl
      exact ⟨hI, by rw [h0]; simp [after]⟩
    | done r => exact ⟨trivial, by rw [h0]; exact Nat.zero_le _⟩
  have hbad : ∀ {o : List Obs} {n : Next}, bad i m = .ok (o, n) → InvN T n ∧ total o + after T n ≤ rest T w := fun h =>
    quiet (bad_total h) (fun w' e => by subst e; exact absurd h bad_done)
  unfold handle at h
  split at h
  · split at h
    · split at h
      · cases h; exact quiet rfl (fun _ e => by cases e; rfl)
      · split at h
        · cases h; exact quiet rfl (fun _ e => by cases e)
        · exact hbad h
    · rename_i hp
      split at h
      · cases h
        refine ⟨fun (hh : Phase.sep = Phase.ack) => (by cases hh), ?_⟩
        have := startResp_total i.timerErr .sep w.numRetrans
        show total (startResp i.timerErr .sep w.numRetrans).1 + 0 ≤ _
        unfold rest
        rw [if_pos hp]
        omega
      · split at h
        · exact quiet (piggybacked_total h) (fun w' e => by subst e; exact absurd h piggybacked_done)
        · split at h
          · cases h; exact quiet rfl (fun _ e => by cases e)
          · exact hbad h
    · split at h
      · cases h; exact quiet rfl (fun _ e => by cases e)
      · exact hbad h
  · split at h
    · exact quiet (sepResponse_total h) (fun w' e => by subst e; exact absurd h sepResponse_done)
    · exact quiet (skip_total h) (fun w' e => by subst e; exact skip_go h)

theorem expire_time {req : Msg} {w : Wait} {i : Input} {o : List Obs} {n : Next} {T : Nat} (hT : T ≤ 2999) (hI : Inv T w)
    (h : expire req w i = .ok (o, n)) : InvN T n ∧ total o + after T n ≤ rest T w := by
  unfold expire at h
  split at h
  · rename_i hp
    obtain ⟨h1, h2⟩ := hI hp
    unfold updateAckTimer at h
    by_cases hn : w.numRetrans ≥ MAX_RETRANSMIT
    · rw [if_pos hn] at h
      cases h
      exact ⟨trivial, Nat.zero_le _⟩
    · rw [if_neg hn] at h
      have hn : w.numRetrans < 4 := Nat.lt_of_not_le hn
      cases he : i.timerErr with
      | some e => rw [he] at h; cases h; exact ⟨trivial, Nat.zero_le _⟩
      | none =>
        rw [he] at h
        simp only at h
        have h8 : 2 ^ w.numRetrans ≤ 8 := by
          have : 2 ^ w.numRetrans ≤ 2 ^ 3 := Nat.pow_le_pow_right (by decide) (by omega)
          omega
        have ht : w.timeout ≤ 8 * T := by
          rw [h1, Nat.mul_comm 8 T]
          exact Nat.mul_le_mul_left T h8
        have hmod : (2 * w.timeout) % 2 ^ 32 = 2 * w.timeout := Nat.mod_eq_of_lt (by omega)
        rw [hmod] at h
        have hr : rest T w = 32 * T - 2 * w.timeout + 30000 := if_pos hp
        split at h
        · rename_i hs
          cases h
          refine ⟨trivial, ?_⟩
          rw [total_append, send_total hs, hr]
          show 2 * w.timeout + 0 + 0 ≤ _
          omega
        · rename_i hs
          cases h
          refine ⟨fun _ => ⟨?_, ?_⟩, ?_⟩
          · show 2 * w.timeout = T * 2 ^ (w.numRetrans + 1)
            rw [h1, Nat.pow_succ, Nat.mul_comm 2, Nat.mul_assoc]
          · show w.numRetrans + 1 ≤ 4
            omega
          · rw [total_append, send_total hs, hr]
            show 2 * w.timeout + 0 + (if w.phase = .ack then 32 * T - 2 * (2 * w.timeout) + 30000 else 0) ≤ _
            rw [if_pos hp]
            omega
        · cases h
        · cases h
  · cases h
    exact ⟨trivial, Nat.zero_le _⟩

theorem step_time {sx px : Bool} {req : Msg} {w : Wait} {i : Input} {o : List Obs} {n : Next} {T : Nat} (hT : T ≤ 2999) (hI : Inv T w)
    (h : step sx px req w i = .ok (o, n)) : InvN T n ∧ total o + after T n ≤ rest T w := by
  have e : ∀ {o : List Obs} {r : Except Err Msg}, total o = 0 → InvN T (.done r) ∧ total o + after T (.done r) ≤ rest T w :=
    fun h => ⟨trivial, by rw [h]; exact Nat.zero_le _⟩
  have g : ∀ {o : List Obs}, total o = 0 → InvN T (.go w) ∧ total o + after T (.go w) ≤ rest T w :=
    fun h => ⟨hI, by rw [h]; simp [after]⟩
  unfold step at h
  split at h
  · cases h; exact e rfl
  · exact expire_time hT hI h
  · split at h
    · cases h; exact g rfl
    · cases h; exact e rfl
  · split at h
    · cases h
    · cases h
    · rename_i hr
      split at h
      · cases h; exact g (recv_total hr)
      · cases h; exact e (recv_total hr)
    · rename_i hr
      split at h
      · rename_i hh
        cases h
        obtain ⟨h1, h2⟩ := handle_time hI hh
        refine ⟨h1, ?_⟩
        rw [total_append, recv_total hr]
        omega
      · cases h
      · cases h

theorem wait_time {sx px : Bool} {req : Msg} {T : Nat} (hT : T ≤ 2999) : ∀ {is : List Input} {w : Wait} {o : List Obs} {r : Option (Except Err Msg)}, Inv T w →
    wait sx px req w is = .ok (o, r) → total o ≤ rest T w
  | [], w, _, _, _, h => by cases h; exact Nat.zero_le _
  | i :: is, w, o, r, hI, h => by
    unfold wait at h
    split at h
    · cases h
    · cases h
    · rename_i hs
      cases h
      have := (step_time hT hI hs).2
      simp only [after] at this
      omega
    · rename_i hs
      obtain ⟨h1, h2⟩ := step_time hT hI hs
      simp only [after] at h2
      split at h
      · rename_i hw
        cases h
        have := wait_time hT h1 hw
        rw [total_append]
        omega
      · cases h
      · cases h

/-- The beginning of the wait. -/
theorem startWait_time (x : XEnv) (type : Nat) : ∃ T ≤ 2999, Inv T (startWait x type).2 ∧
    total (startWait x type).1 + rest T (startWait x type).2 ≤ if type = CON then 122969 else 30000 := by
  unfold startWait
  split
  · rename_i hc
    have ha : ACK_TIMEOUT = 2000 := rfl
    have hm := Nat.mod_lt x.rand (show 0 < 1000 by decide)
    refine ⟨ACK_TIMEOUT + x.rand % 1000, by omega, fun _ => ⟨(Nat.mul_one _).symm, Nat.zero_le _⟩, ?_⟩
    have hr : rest (ACK_TIMEOUT + x.rand % 1000) ⟨.ack, 0, ACK_TIMEOUT + x.rand % 1000⟩ =
        32 * (ACK_TIMEOUT + x.rand % 1000) - 2 * (ACK_TIMEOUT + x.rand % 1000) + 30000 := rfl
    simp only
    rw [hr]
    cases x.timerErr with
    | none =>
      show ACK_TIMEOUT + x.rand % 1000 + 0 + _ ≤ _
      omega
    | some _ =>
      show 0 + _ ≤ _
      omega
  · refine ⟨0, by omega, fun h => (by cases h), ?_⟩
    exact startResp_total x.timerErr .non 0

theorem setType_same {req req' : Msg} {n : Nat} (h : setMsgId req n = .ok req') : req'.type = req.type := by
  unfold setMsgId at h
  split at h <;> cases h
  rfl

theorem setToken_type {req req' : Msg} {t : Bytes} (h : setToken req t = .ok req') : req'.type = req.type := by
  unfold setToken at h
  split at h <;> cases h
  rfl

theorem exchange_time {sx px : Bool} {x : XEnv} {req : Msg} {o : List Obs} {r : Option (Except Err Msg)} (h : exchange sx px x req = .ok (o, r)) :
    total o ≤ if req.type = CON then 122969 else 30000 := by
  unfold exchange at h
  split at h
  · cases h; exact Nat.zero_le _
  split at h
  · cases h
  · cases h; exact Nat.zero_le _
  rename_i h1
  split at h
  · cases h
  · cases h; exact Nat.zero_le _
  rename_i h2
  have ht := (setToken_type h2).trans (setType_same h1)
  split at h
  · cases h
  · cases h
  · rename_i hs
    cases h
    rw [send_total hs]
    exact Nat.zero_le _
  rename_i hs
  split at h
  · simp only at h
    split at h
    · rename_i hw
      cases h
      obtain ⟨T, hT, hI, hb⟩ := startWait_time x req.type
      rw [ht] at hw ⊢
      have := wait_time hT hI hw
      rw [total_append, total_append, send_total hs]
      omega
    · cases h
    · cases h
  · cases h
    rw [send_total hs]
    exact Nat.zero_le _

/-- An exchange depends on what happens only through the wait. -/
theorem exchange_inputs {sx px : Bool} {x : XEnv} {is js : List Input} (req : Msg) (h : ∀ req w, wait sx px req w is = wait sx px req w js) :
    exchange sx px { x with inputs := is } req = exchange sx px { x with inputs := js } req := by
  unfold exchange
  simp only [XEnv.id, XEnv.token, startWait, h]

end FreeCoAP.Client.Ends
