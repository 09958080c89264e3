import Verif.Client.SpecDtlsLife

/-! # Lemmas about the datagrams of a client over DTLS -/

namespace FreeCoAP.Client.Dtls

open FreeCoAP.Msg

theorem Handed.append {g g' l l' : List Bytes} (h : Handed g l) (h' : Handed g' l') : Handed (g ++ g') (l ++ l') := by
  induction h with
  | nil => exact h'
  | cons h _ ih => exact .cons h ih

theorem Merge.append {xs ys zs xs' ys' zs' : List α} (h : Merge xs ys zs) (h' : Merge xs' ys' zs') : Merge (xs ++ xs') (ys ++ ys') (zs ++ zs') := by
  induction h with
  | nil => exact h'
  | left _ ih => exact .left ih
  | right _ ih => exact .right ih

theorem pulls_append (t u : List Io) : pulls (t ++ u) = pulls t ++ pulls u := by simp [pulls]

theorem Orderly.refl (w : World) : Orderly [] w w := ⟨[], [], [], [], rfl, .nil, by simp, by simp, .nil⟩

theorem Orderly.trans {i j : List (List Bytes)} {w w1 w2 : World} (h : Orderly i w w1) (h' : Orderly j w1 w2) : Orderly (i ++ j) w w2 := by
  obtain ⟨u, c, g, t, h1, h2, h3, h4, h5⟩ := h
  obtain ⟨u', c', g', t', k1, k2, k3, k4, k5⟩ := h'
  refine ⟨u ++ u', c ++ c', g ++ g', t ++ t', ?_, ?_, ?_, ?_, ?_⟩
  · rw [h1, k1, List.append_assoc]
  · rw [List.map_append]; exact h2.append k2
  · rw [List.flatten_append, ← List.append_assoc, h3, List.append_assoc, k3, List.append_assoc]
  · rw [k4, h4, List.append_assoc]
  · rw [pulls_append]; exact h5.append k5

/-- Nothing came with `select` in the second part. -/
theorem Orderly.then {i : List (List Bytes)} {w w1 w2 : World} (h : Orderly i w w1) (h' : Orderly [] w1 w2) : Orderly i w w2 := by
  have := h.trans h'
  rwa [List.append_nil] at this

theorem Orderly.fail {i : List (List Bytes)} {w w' : World} (h : Orderly i w w') (e : Err) : Orderly i w (w'.fail e) := h

theorem Orderly.clear {i : List (List Bytes)} {w w' : World} {e : Option Err} (h : Orderly i { w with errno := e } w') : Orderly i w w' := h

theorem next_orderly (w : World) : Orderly [] w w.next.2 := by
  unfold World.next
  split
  · exact .refl w
  · rename_i m rest h
    exact ⟨[m], [m.arrive], [], [], by simp [h], .left .nil, by simp, by simp, .nil⟩

theorem pull_orderly (len : Nat) (w : World) : Orderly [] w (pull len w).2 := by
  have h := next_orderly w
  unfold pull
  split
  · rename_i e w1 hw; rw [hw] at h; exact h
  · rename_i w1 hw; rw [hw] at h
    split
    · exact h
    · rename_i d q hq
      exact h.then ⟨[], [], [d], [.pulled (d.take len)], by simp, .nil, by simp [hq], by simp, .cons (List.take_prefix _ _) .nil⟩

theorem listenTimeout_orderly (w : World) : Orderly [] w (listenTimeout w).2 := by
  have h := next_orderly w
  unfold listenTimeout
  split
  · rename_i e w1 hw; rw [hw] at h; exact h
  · rename_i w1 hw; rw [hw] at h; exact h

theorem peek_orderly (w : World) : Orderly [] w (peek w).2 := by
  have h := next_orderly w
  unfold peek
  split
  · rename_i e w1 hw; rw [hw] at h; exact h
  · rename_i w1 hw; rw [hw] at h
    split <;> exact h

theorem wait_orderly (w : World) : Orderly [] w (wait w).2 := by
  have h := listenTimeout_orderly w
  unfold wait
  split
  · rename_i w1 hw; rw [hw] at h; exact h
  · rename_i w1 hw; rw [hw] at h; exact h
  · rename_i w1 hw; rw [hw] at h; exact h.then (peek_orderly w1)

theorem push_orderly (b : Bytes) (w : World) : Orderly [] w (push b w).2 := by
  have h := next_orderly w
  unfold push
  split
  · rename_i e w1 hw; rw [hw] at h; exact h
  · rename_i w1 hw; rw [hw] at h
    exact h.then ⟨[], [], [], [.pushed b], by simp, .nil, by simp, by simp, .nil⟩

theorem call_orderly (p : Lib α) (w : World) : Orderly [] w (p.call w).2 := by
  induction p generalizing w with
  | done r f => exact .refl w
  | pull len k ih => exact (pull_orderly len w).then (ih _ _)
  | wait k ih => exact (wait_orderly w).then (ih _ _)
  | push b k ih => exact (push_orderly b w).then (ih _ _)

theorem shakeLoop_orderly (hs : Nat → Lib Shake) (n : Nat) (w : World) : Orderly [] w (shakeLoop hs n w).2 := by
  induction n generalizing w with
  | zero => unfold shakeLoop; exact .refl w
  | succ n ih =>
    have h0 := (call_orderly (hs (ATTEMPTS - (n + 1))) { w with errno := none }).clear
    have hafter : ∀ (r : Shake) (w1 : World), Orderly [] w w1 → Orderly [] w (shakeAfter r n w1 (shakeLoop hs n)).2 := by
      intro r w1 h1
      unfold shakeAfter
      split
      · exact h1
      · exact h1
      · exact h1
      · exact h1
      · split
        · exact h1.then (ih _)
        · have h2 := listenTimeout_orderly w1
          split
          · rename_i e w2 hw; rw [hw] at h2; exact h1.then h2
          · rename_i b w2 hw; rw [hw] at h2; exact (h1.then h2).then (ih _)
    unfold shakeLoop
    dsimp only
    split
    · split
      · exact h0
      · exact hafter _ _ h0
    · exact hafter _ _ h0

theorem create_orderly (setup : Bool) (hs : Nat → Lib Shake) (verified : Bool) (w : World) : Orderly [] w (create setup hs verified w).2 := by
  have h := shakeLoop_orderly hs ATTEMPTS w
  unfold create
  split
  · exact .refl w
  · split
    · rename_i e w1 hw; rw [hw] at h; exact h
    · rename_i w1 hw; rw [hw] at h
      split <;> exact h

theorem record_orderly (p : Lib Rec) (w : World) : Orderly [] w (record p w).2 := by
  have h0 := (call_orderly p { w with errno := none }).clear
  unfold record
  dsimp only
  split
  · exact h0
  · split
    · exact h0
    · exact h0
    · exact h0
    · split <;> exact h0

theorem step_orderly (sx px : Bool) (req : Msg) (w : Wait) (i : Input) (u : World) : Orderly [i.arrive] u (step sx px req w i u).2 := by
  have h0 : Orderly [i.arrive] u { u with queue := u.queue ++ i.arrive } := ⟨[], [i.arrive], [], [], by simp, .right .nil, by simp, by simp, .nil⟩
  unfold step
  dsimp only
  split
  · exact h0
  · exact h0
  · have h1 := record_orderly i.recv { u with queue := u.queue ++ i.arrive }
    split
    · rename_i e w1 hw; rw [hw] at h1; exact h0.then h1
    · rename_i d w1 hw; rw [hw] at h1; exact h0.then h1

theorem Taken.nil (is : List Input) : Taken is [] := ⟨0, by simp⟩

theorem Taken.cons {i : Input} {is : List Input} {inp : List (List Bytes)} (h : Taken is inp) : Taken (i :: is) ([i.arrive] ++ inp) := by
  obtain ⟨n, rfl⟩ := h
  exact ⟨n + 1, by simp⟩

theorem waits_orderly (sx px : Bool) (req : Msg) (is : List Input) (w : Wait) (u : World) :
    ∃ inp, Taken is inp ∧ Orderly inp u (waits sx px req w is u).2 := by
  induction is generalizing w u with
  | nil => exact ⟨[], .nil _, .refl u⟩
  | cons i is ih =>
    have h := step_orderly sx px req w i u
    have h1 : Taken (i :: is) [i.arrive] := (Taken.nil is).cons
    unfold waits
    split
    · rename_i u1 hw; rw [hw] at h; exact ⟨_, h1, h⟩
    · rename_i e u1 hw; rw [hw] at h; exact ⟨_, h1, h⟩
    · rename_i o r u1 hw; rw [hw] at h; exact ⟨_, h1, h⟩
    · rename_i o w1 u1 hw; rw [hw] at h
      obtain ⟨inp, h2, h3⟩ := ih w1 u1
      refine ⟨_, h2.cons, ?_⟩
      split
      · rename_i o2 r u2 hw2; rw [hw2] at h3; exact h.trans h3
      · rename_i e u2 hw2; rw [hw2] at h3; exact h.trans h3
      · rename_i u2 hw2; rw [hw2] at h3; exact h.trans h3

theorem exchange_orderly (sx px : Bool) (x : XEnv) (req : Msg) (is : List Input) (u : World) :
    ∃ inp, Taken is inp ∧ Orderly inp u (exchange sx px x req is u).2 := by
  have h0 : ∃ inp, Taken is inp ∧ Orderly inp u u := ⟨[], .nil _, .refl u⟩
  unfold exchange
  split
  · exact h0
  · split
    · exact h0
    · exact h0
    · rename_i req1 _
      split
      · exact h0
      · exact h0
      · rename_i req2 _
        split
        · exact h0
        · exact h0
        · exact h0
        · split
          · obtain ⟨inp, h1, h2⟩ := waits_orderly sx px req2 is (startWait x req2.type).2 u
            refine ⟨inp, h1, ?_⟩
            dsimp only
            split
            · rename_i o r u2 hw; rw [hw] at h2; exact h2
            · rename_i e u2 hw; rw [hw] at h2; exact h2
            · rename_i u2 hw; rw [hw] at h2; exact h2
          · exact h0

theorem rounds_one {r : Round} {rs : List Round} {inp : List (List Bytes)} (h : Taken r.is inp) : TakenRounds (r :: rs) inp := by
  have := TakenRounds.cons h (.none rs)
  rwa [List.append_nil] at this

theorem blockwise1_orderly (sx px : Bool) (req : Msg) (size2 : Nat) (body : Bytes) (bodyLen : Nat) (rs : List Round) (size1 szx start : Nat) (resp : Msg)
    (u : World) : ∃ inp, TakenRounds rs inp ∧ Orderly inp u (blockwise1 sx px req size2 body bodyLen size1 szx start resp rs u).2 := by
  induction rs generalizing size1 szx start resp u with
  | nil => exact ⟨[], .none _, .refl u⟩
  | cons r rs ih =>
    have h0 : ∃ inp, TakenRounds (r :: rs) inp ∧ Orderly inp u u := ⟨[], .none _, .refl u⟩
    unfold blockwise1
    split
    · exact h0
    · exact h0
    · exact h0
    · rename_i msg len _
      obtain ⟨inp, h1, h2⟩ := exchange_orderly sx px r.b.x msg r.is u
      have h3 := rounds_one (rs := rs) h1
      split
      · rename_i u1 hw; rw [hw] at h2; exact ⟨_, h3, h2⟩
      · rename_i e u1 hw; rw [hw] at h2; exact ⟨_, h3, h2⟩
      · rename_i o u1 hw; rw [hw] at h2; exact ⟨_, h3, h2⟩
      · rename_i o e u1 hw; rw [hw] at h2; exact ⟨_, h3, h2⟩
      · rename_i o resp1 u1 hw; rw [hw] at h2
        split
        · exact ⟨_, h3, h2⟩
        · split
          · exact ⟨_, h3, h2⟩
          · split
            · exact ⟨_, h3, h2⟩
            · exact ⟨_, h3, h2⟩
            · exact ⟨_, h3, h2⟩
            · rename_i blk _
              dsimp only
              generalize (if blk.size < size1 then blk.size else size1) = size1'
              split
              · exact ⟨_, h3, h2⟩
              · split
                · exact ⟨_, h3, h2⟩
                · exact ⟨_, h3, h2⟩
                · split
                  · exact ⟨_, h3, h2⟩
                  · obtain ⟨inps, k1, k2⟩ := ih _ _ _ _ u1
                    exact ⟨_, .cons h1 k1, h2.trans k2⟩

theorem blockwise2_orderly (sx px : Bool) (req : Msg) (bodyLen : Nat) (rs : List Round) (size2 szx start : Nat) (resp : Msg) (body : Bytes)
    (u : World) : ∃ inp, TakenRounds rs inp ∧ Orderly inp u (blockwise2 sx px req bodyLen size2 szx start resp body rs u).2 := by
  induction rs generalizing size2 szx start resp body u with
  | nil => exact ⟨[], .none _, .refl u⟩
  | cons r rs ih =>
    have h0 : ∃ inp, TakenRounds (r :: rs) inp ∧ Orderly inp u u := ⟨[], .none _, .refl u⟩
    unfold blockwise2
    split
    · exact h0
    · exact h0
    · exact h0
    · rename_i msg _
      obtain ⟨inp, h1, h2⟩ := exchange_orderly sx px r.b.x msg r.is u
      have h3 := rounds_one (rs := rs) h1
      split
      · rename_i u1 hw; rw [hw] at h2; exact ⟨_, h3, h2⟩
      · rename_i e u1 hw; rw [hw] at h2; exact ⟨_, h3, h2⟩
      · rename_i o u1 hw; rw [hw] at h2; exact ⟨_, h3, h2⟩
      · rename_i o e u1 hw; rw [hw] at h2; exact ⟨_, h3, h2⟩
      · rename_i o resp1 u1 hw; rw [hw] at h2
        split
        · exact ⟨_, h3, h2⟩
        · exact ⟨_, h3, h2⟩
        · exact ⟨_, h3, h2⟩
        · obtain ⟨inps, k1, k2⟩ := ih _ _ _ _ _ u1
          exact ⟨_, .cons h1 k1, h2.trans k2⟩

theorem upload_orderly (sx px : Bool) (req resp : Msg) (size1 size2 : Nat) (body : Bytes) (bodyLen : Nat) (rs : List Round) (u : World) :
    ∃ inp, TakenRounds rs inp ∧ Orderly inp u (upload sx px req resp size1 size2 body bodyLen rs u).2 := by
  have h0 : ∃ inp, TakenRounds rs inp ∧ Orderly inp u u := ⟨[], .none _, .refl u⟩
  unfold upload
  split
  · exact h0
  · split
    · exact h0
    · exact h0
    · split
      · exact h0
      · exact h0
      · exact blockwise1_orderly ..

theorem download_orderly (sx px : Bool) (req resp : Msg) (size2 : Nat) (body : Bytes) (bodyLen : Nat) (haveResp : Bool) (rs : List Round) (u : World) :
    ∃ inp, TakenRounds rs inp ∧ Orderly inp u (download sx px req resp size2 body bodyLen haveResp rs u).2 := by
  have h0 : ∃ inp, TakenRounds rs inp ∧ Orderly inp u u := ⟨[], .none _, .refl u⟩
  unfold download
  split
  · exact h0
  · split
    · exact h0
    · exact h0
    · split
      · exact blockwise2_orderly ..
      · split
        · exact h0
        · exact h0
        · exact h0
        · exact blockwise2_orderly ..

theorem call_after_orderly (sx px : Bool) (c : Call) (u : World) : ∃ inp, c.Taken inp ∧ Orderly inp u (c.after sx px u) := by
  cases c with
  | exchange x req is => exact exchange_orderly sx px x req is u
  | blockwise req resp size1 size2 body bodyLen haveResp rs1 rs2 =>
    unfold Call.Taken Call.after
    dsimp only
    unfold exchangeBlockwise
    split
    · obtain ⟨inp, h1, h2⟩ := download_orderly sx px req resp size2 body bodyLen haveResp rs2 u
      exact ⟨inp, ⟨[], inp, .none _, h1, rfl⟩, h2⟩
    · split
      · obtain ⟨inp, h1, h2⟩ := upload_orderly sx px req resp size1 size2 body bodyLen rs1 u
        have h3 : ∃ inp1 inp2, TakenRounds rs1 inp1 ∧ TakenRounds rs2 inp2 ∧ inp = inp1 ++ inp2 := ⟨inp, [], h1, .none _, by simp⟩
        split
        · rename_i u1 hw; rw [hw] at h2; exact ⟨_, h3, h2⟩
        · rename_i e u1 hw; rw [hw] at h2; exact ⟨_, h3, h2⟩
        · rename_i r u1 hw; rw [hw] at h2
          split
          · exact ⟨_, h3, h2⟩
          · exact ⟨_, h3, h2⟩
          · split
            · exact ⟨_, h3, h2⟩
            · split
              · exact ⟨_, h3, h2⟩
              · obtain ⟨inp2, k1, k2⟩ := download_orderly sx px req r.resp size2 r.body bodyLen true rs2 u1
                refine ⟨_, ⟨inp, inp2, h1, k1, rfl⟩, ?_⟩
                split
                · rename_i r2 u2 hw2; rw [hw2] at k2; exact h2.trans k2
                · rename_i e u2 hw2; rw [hw2] at k2; exact h2.trans k2
                · rename_i u2 hw2; rw [hw2] at k2; exact h2.trans k2
      · exact ⟨[], ⟨[], [], .none _, .none _, rfl⟩, .refl u⟩

theorem calls_orderly (sx px : Bool) (cs : List Call) (u : World) :
    ∃ inp, TakenCalls cs inp ∧ Orderly inp u (cs.foldl (fun u c => c.after sx px u) u) := by
  induction cs generalizing u with
  | nil => exact ⟨[], .nil, .refl u⟩
  | cons c cs ih =>
    obtain ⟨inp, h1, h2⟩ := call_after_orderly sx px c u
    obtain ⟨inps, k1, k2⟩ := ih (c.after sx px u)
    exact ⟨_, .cons h1 k1, h2.trans k2⟩

end FreeCoAP.Client.Dtls
