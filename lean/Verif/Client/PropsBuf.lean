import Verif.Client.SpecBuf
import Verif.Msg.LemmasHeapUse
import Verif.Msg.HeapProps

/-! # The buffers that the messages of the client use (C131) -/

namespace FreeCoAP.Client.Buf

open FreeCoAP.Msg.Heap
open FreeCoAP.Mem (Pool Call held)

variable {g : Geo} {os om : List Nat} {h0 h : Heap}

/-- The state when a function returns. -/
structure Left (g : Geo) (h0 : Heap) (r : Ret) (os om : List Nat) : Prop where
  inv : J g h0 r.heap (r.left.flatMap HMsg.ownSmall ++ (r.resp.ownSmall ++ os)) (r.left.flatMap HMsg.ownMedium ++ (r.resp.ownMedium ++ om))
  clean : r.status ≠ some .ENOMEM → r.left.flatMap HMsg.ownSmall = [] ∧ r.left.flatMap HMsg.ownMedium = []

/-- The state after one pass of the loop. -/
def After (g : Geo) (h0 : Heap) (os om : List Nat) : Ret ⊕ HMsg × Heap → Prop
  | .inl r => Left g h0 r os om
  | .inr (resp, h) => J g h0 h (resp.ownSmall ++ os) (resp.ownMedium ++ om)

theorem destroyed {msg resp : HMsg} {st : Option Err} (i : J g h0 h (msg.ownSmall ++ (resp.ownSmall ++ os)) (msg.ownMedium ++ (resp.ownMedium ++ om))) :
    Left g h0 ⟨st, [(destroy h msg).1], resp, (destroy h msg).2⟩ os om :=
  ⟨i.destroy.1, fun _ => ⟨rfl, rfl⟩⟩

theorem exchange_inv (hg : g.Apart) {S : Nat} {sx : Bool} : ∀ {ds : List (Bytes × Nat)} {h : Heap} {resp resp' : HMsg} {h' : Heap} {os om : List Nat},
    J g h0 h (resp.ownSmall ++ os) (resp.ownMedium ++ om) → exchange S sx h resp ds = .ok (resp', h') →
    J g h0 h' (resp'.ownSmall ++ os) (resp'.ownMedium ++ om)
  | [], _, _, _, _, _, _, i, e => by cases e; exact i
  | (mem, len) :: ds, h, resp, resp', h', os, om, i, e => by
    unfold exchange at e
    have j := i.parse hg S sx mem len
    split at e
    · cases e
    · rename_i r m h1 hne hp
      rw [hp] at j
      exact exchange_inv hg j.1 e

theorem swap3 {α : Type} (a b c : List α) : (a ++ (b ++ c)).Perm (b ++ (a ++ c)) := by
  rw [← List.append_assoc, ← List.append_assoc]
  exact List.perm_append_comm.append_right _

theorem finish_inv {S : Nat} {sx : Bool} {msg resp : HMsg} {r : Round} {o : Ret ⊕ HMsg × Heap}
    (i : J g h0 h (msg.ownSmall ++ (resp.ownSmall ++ os)) (msg.ownMedium ++ (resp.ownMedium ++ om))) (e : finish S sx h msg resp r = .ok o) :
    After g h0 os om o := by
  unfold finish at e
  split at e
  · cases e; exact destroyed i
  · cases e
    exact i.destroy.1.destroy.1

theorem trade_inv (hg : g.Apart) {S : Nat} {sx : Bool} {msg resp : HMsg} {r : Round} {o : Ret ⊕ HMsg × Heap}
    (i : J g h0 h (msg.ownSmall ++ (resp.ownSmall ++ os)) (msg.ownMedium ++ (resp.ownMedium ++ om))) (e : trade S sx h msg resp r = .ok o) :
    After g h0 os om o := by
  unfold trade at e
  split at e
  · cases e
  · cases e
  · rename_i resp' h' he
    have j := exchange_inv hg (i.perm (swap3 _ _ _) (swap3 _ _ _)) he
    have j := j.perm (swap3 _ _ _) (swap3 _ _ _)
    split at e
    · cases e; exact destroyed j
    · exact finish_inv j e

theorem leave_inv {msg resp : HMsg} {er : Err} {o : Ret ⊕ HMsg × Heap}
    (i : J g h0 h (msg.ownSmall ++ (resp.ownSmall ++ os)) (msg.ownMedium ++ (resp.ownMedium ++ om))) (e : leave er h msg resp = .ok o) :
    After g h0 os om o := by
  cases e
  exact destroyed i

theorem withPayload_inv (hg : g.Apart) {S : Nat} {sx : Bool} {msg resp : HMsg} {r : Round} {o : Ret ⊕ HMsg × Heap}
    (i : J g h0 h (msg.ownSmall ++ (resp.ownSmall ++ os)) (msg.ownMedium ++ (resp.ownMedium ++ om))) (e : withPayload S sx h msg resp r = .ok o) :
    After g h0 os om o := by
  unfold withPayload at e
  have j := i.setPayload r.payload
  split at e
  · cases e
  · rename_i hs; rw [hs] at j; exact leave_inv j.1 e
  · rename_i hs; rw [hs] at j; exact trade_inv hg j.1 e

theorem copied {S : Nat} {h1 : Heap} {req resp msg : HMsg} {e : Err} (hc : copy S h create req = (.err e, msg, h1))
    (j : J g h0 h1 (msg.ownSmall ++ (resp.ownSmall ++ os)) (msg.ownMedium ++ (resp.ownMedium ++ om))) : Left g h0 ⟨some e, [msg], resp, h1⟩ os om := by
  refine ⟨by simpa using j, fun hne => ?_⟩
  obtain ⟨h1, h2⟩ := copy_err hc (fun h => hne (by rw [h]))
  have h1 : msg.ownSmall = [] := h1
  have h2 : msg.ownMedium = [] := h2
  simp [h1, h2]

theorem round1_inv (hg : g.Apart) {S : Nat} {sx : Bool} {req resp : HMsg} {r : Round} {o : Ret ⊕ HMsg × Heap}
    (i : J g h0 h (resp.ownSmall ++ os) (resp.ownMedium ++ om)) (e : round1 S sx h req resp r = .ok o) : After g h0 os om o := by
  unfold round1 at e
  have j := J.copy (m := create) hg i S req
  split at e
  · cases e
  · rename_i hc; rw [hc] at j; cases e; exact copied hc j.1
  · rename_i hc
    rw [hc] at j
    split at e
    · exact leave_inv j.1 e
    have k := j.1.addOp hg S 27 r.val
    split at e
    · cases e
    · rename_i ha; rw [ha] at k; exact leave_inv k.1 e
    · rename_i ha
      rw [ha] at k
      split at e
      · split at e
        · exact leave_inv k.1 e
        have l := k.1.addOp hg S 23 r.val2
        split at e
        · cases e
        · rename_i hb; rw [hb] at l; exact leave_inv l.1 e
        · rename_i hb; rw [hb] at l; exact withPayload_inv hg l.1 e
      · exact withPayload_inv hg k.1 e

theorem round2_inv (hg : g.Apart) {S : Nat} {sx : Bool} {req resp : HMsg} {hv : Bool} {r : Round} {o : Ret ⊕ HMsg × Heap}
    (i : J g h0 h (resp.ownSmall ++ os) (resp.ownMedium ++ om)) (e : round2 S sx h req resp hv r = .ok o) : After g h0 os om o := by
  unfold round2 at e
  split at e
  · exact finish_inv (msg := create) i e
  have j := J.copy (m := create) hg i S req
  split at e
  · cases e
  · rename_i hc; rw [hc] at j; cases e; exact copied hc j.1
  · rename_i hc
    rw [hc] at j
    split at e
    · exact leave_inv j.1 e
    have k := j.1.addOp hg S 23 r.val
    split at e
    · cases e
    · rename_i ha; rw [ha] at k; exact leave_inv k.1 e
    · rename_i ha; rw [ha] at k; exact trade_inv hg k.1 e

theorem blockwise1_inv (hg : g.Apart) {S : Nat} {sx : Bool} {req : HMsg} {x : Ret} : ∀ {rs : List Round} {h : Heap} {resp : HMsg},
    J g h0 h (resp.ownSmall ++ os) (resp.ownMedium ++ om) → blockwise1 S sx h req resp rs = .ok (some x) → Left g h0 x os om
  | [], _, _, _, e => by cases e
  | r :: rs, h, resp, i, e => by
    unfold blockwise1 at e
    split at e
    · cases e
    · cases e
    · rename_i y hr; cases e; exact round1_inv hg i hr
    · rename_i resp' h' hr; exact blockwise1_inv hg (round1_inv hg i hr) e

theorem blockwise2_inv (hg : g.Apart) {S : Nat} {sx : Bool} {req : HMsg} {x : Ret} : ∀ {rs : List Round} {hv : Bool} {h : Heap} {resp : HMsg},
    J g h0 h (resp.ownSmall ++ os) (resp.ownMedium ++ om) → blockwise2 S sx h req resp hv rs = .ok (some x) → Left g h0 x os om
  | [], _, _, _, _, e => by cases e
  | r :: rs, hv, h, resp, i, e => by
    unfold blockwise2 at e
    split at e
    · cases e
    · cases e
    · rename_i y hr; cases e; exact round2_inv hg i hr
    · rename_i resp' h' hr; exact blockwise2_inv hg (round2_inv hg i hr) e

theorem blockwise_inv (hg : g.Apart) {S : Nat} {sx : Bool} {req resp : HMsg} {get hv more : Bool} {rs1 rs2 : List Round} {x : Ret}
    (i : J g h0 h (resp.ownSmall ++ os) (resp.ownMedium ++ om)) (e : blockwise S sx h req resp get hv more rs1 rs2 = .ok (some x)) :
    Left g h0 x os om := by
  unfold blockwise at e
  split at e
  · exact blockwise2_inv hg i e
  · split at e
    · cases e
    · cases e
    · cases e
    · rename_i y hy
      have j := blockwise1_inv hg i hy
      split at e
      · rename_i hst
        obtain ⟨z1, z2⟩ := j.clean (by rw [hst.1]; simp)
        have j1 := j.inv
        rw [z1, z2] at j1
        split at e
        · rename_i z hz
          cases e
          have k := blockwise2_inv hg j1 hz
          refine ⟨?_, fun hne => ?_⟩
          · have := k.inv
            simpa [z1, z2] using this
          · have := k.clean hne
            simpa [z1, z2] using this
        · rename_i hne
          exact absurd e (hne x)
      · cases e; exact j

theorem step_use (hg : g.Apart) {S : Nat} {sx : Bool} {p p' : Prog} {a : Act} {st : List (Option Err)}
    (i : J g h0 p.heap p.ownedSmall p.ownedMedium) (e : step S sx p a = .ok (p', st)) (hn : some Err.ENOMEM ∉ st) :
    J g h0 p'.heap p'.ownedSmall p'.ownedMedium := by
  cases a with
  | cmd c =>
    cases e
    exact ⟨step_inv hg S sx p c i.inv, i.le.trans (le_step S sx p c)⟩
  | blockwise a b get hv more rs1 rs2 =>
    unfold step at e
    dsimp only at e
    split at e
    · rename_i req resp h1 h2
      split at e
      · cases e; exact i
      split at e
      · cases e
      · cases e
      · cases e; exact i
      · rename_i r hr
        cases e
        obtain ⟨q1, -⟩ := flatMap_set_perm HMsg.ownSmall p.msgs b resp r.resp h2
        obtain ⟨q2, -⟩ := flatMap_set_perm HMsg.ownMedium p.msgs b resp r.resp h2
        obtain ⟨-, q3⟩ := flatMap_set_perm HMsg.ownSmall p.msgs b resp r.resp h2
        obtain ⟨-, q4⟩ := flatMap_set_perm HMsg.ownMedium p.msgs b resp r.resp h2
        have j := blockwise_inv hg (i.perm q1 q2) hr
        obtain ⟨z1, z2⟩ := j.clean (fun h => hn (by rw [h]; exact List.mem_singleton.2 rfl))
        have j1 := j.inv
        rw [z1, z2] at j1
        exact j1.perm q3.symm q4.symm
    · cases e; exact i

theorem run_use (hg : g.Apart) {S : Nat} {sx : Bool} : ∀ {as : List Act} {p p' : Prog} {st : List (Option Err)},
    J g h0 p.heap p.ownedSmall p.ownedMedium → run S sx p as = .ok (p', st) → some Err.ENOMEM ∉ st → J g h0 p'.heap p'.ownedSmall p'.ownedMedium
  | [], _, _, _, i, e, _ => by cases e; exact i
  | a :: as, p, p', st, i, e, hn => by
    unfold run at e
    split at e
    · cases e
    · cases e
    · rename_i p1 st1 h1
      split at e
      · cases e
      · cases e
      · rename_i p2 st2 h2
        cases e
        exact run_use hg (step_use hg i h1 (fun h => hn (List.mem_append_left _ h))) h2 (fun h => hn (List.mem_append_right _ h))

/-- C131, in full: after any history of the application the buffers in use are those of its messages. -/
def C131_statement : Prop :=
  ∀ (ns ls nm lm : Nat) (small medium : Pool), Created ns ls nm lm small medium →
    ∀ (S : Nat) (sx : Bool) (as : List Act) (p : Prog) (st : List (Option Err)), run S sx (start small medium) as = .ok (p, st) → Exact p

/-- C131, proved part 1: when no exchange returned ENOMEM nothing is lost but the structures of options whose value could not be allocated (the
fault of property C13). -/
theorem C131_lost_partial {ns ls nm lm : Nat} {small medium : Pool} (c : Created ns ls nm lm small medium) (S : Nat) (sx : Bool) (as : List Act)
    (p : Prog) (st : List (Option Err)) (h : run S sx (start small medium) as = .ok (p, st)) (hn : some Err.ENOMEM ∉ st) :
    (held [] p.heap.smallLog).Perm (p.ownedSmall ++ p.heap.lost) ∧ (held [] p.heap.mediumLog).Perm p.ownedMedium ∧ Clean [] p.heap.smallLog := by
  obtain ⟨hg, i0⟩ := c.init
  have i := (run_use hg (p := start small medium) ⟨i0, Le.refl _⟩ h hn).inv
  exact ⟨i.permS, i.permM, i.cleanS⟩

/-- C131, proved part 2: the full statement when no exchange returned ENOMEM and the medium pool refused no request. -/
theorem C131_exact_partial {ns ls nm lm : Nat} {small medium : Pool} (c : Created ns ls nm lm small medium) (S : Nat) (sx : Bool) (as : List Act)
    (p : Prog) (st : List (Option Err)) (h : run S sx (start small medium) as = .ok (p, st)) (hn : some Err.ENOMEM ∉ st)
    (hr : ∀ l, (Call.alloc l, none) ∉ p.heap.mediumLog) : Exact p := by
  obtain ⟨hg, i0⟩ := c.init
  have i := run_use hg (p := start small medium) (h0 := Heap.init small medium) ⟨i0, Le.refl _⟩ h hn
  have hl : p.heap.lost = [] := by
    apply Decidable.byContradiction
    intro hne
    rcases i.le.2 hne with h | ⟨l, h⟩
    · exact h rfl
    · exact hr l h
  have hs := i.inv.permS
  rw [hl, List.append_nil] at hs
  exact ⟨hs, i.inv.permM, i.inv.cleanS, i.inv.cleanM hl⟩

/-- A block whose response is the end. -/
def exRound : Round :=
  { format := true, val := [0], last := false, format2 := true, val2 := [], payload := [1, 2], datagrams := [([0x60, 0x45, 0, 1, 0xFF, 7, 0], 6)],
    failed := none, done := some none }

/-- The application makes a request with `n` options and a response. -/
def exMake (n : Nat) : List Act := [.cmd .create, .cmd .create] ++ List.replicate n (.cmd (.addOp 0 11 [97]))

/-- A GET request with one option, an exchange, and the end of the messages. -/
def exGood : List Act := exMake 1 ++ [.blockwise 0 1 true false false [] [exRound], .cmd (.destroy 0), .cmd (.destroy 1)]

def exEnd (as : List Act) : Prog × List (Option Err) := match run 32 false (start exSmall exMedium) as with
  | .ok r => r
  | _ => (start exSmall exMedium, [])

theorem exGood_run : run 32 false (start exSmall exMedium) exGood = .ok (exEnd exGood) := by
  unfold exEnd
  split
  · assumption
  · rename_i h
    exact absurd (show (match run 32 false (start exSmall exMedium) exGood with | .ok _ => true | _ => false) = true by decide +kernel) (by
      split
      · rename_i r hr; exact absurd hr (h r)
      · simp)

example : (exEnd exGood).2 = [none] ∧ (exEnd exGood).1.heap.smallLog.length = 6 ∧ held [] (exEnd exGood).1.heap.smallLog = [] := by decide +kernel

example : Exact (exEnd exGood).1 :=
  C131_exact_partial ex_created 32 false exGood _ _ exGood_run (by decide +kernel) (by
    intro l h
    have e : (exEnd exGood).1.heap.mediumLog.all (fun e => e.2.isSome || match e.1 with | .free _ => true | .alloc _ => false) = true := by decide +kernel
    have := List.all_eq_true.1 e _ h
    simp at this)

/-- A request with five options; the pool has buffers for eight. -/
def exBad : List Act := exMake 5 ++ [.blockwise 0 1 true false false [] [exRound], .cmd (.destroy 0), .cmd (.destroy 1)]

theorem exBad_run : run 32 false (start exSmall exMedium) exBad = .ok (exEnd exBad) := by
  unfold exEnd
  split
  · assumption
  · rename_i h
    exact absurd (show (match run 32 false (start exSmall exMedium) exBad with | .ok _ => true | _ => false) = true by decide +kernel) (by
      split
      · rename_i r hr; exact absurd hr (h r)
      · simp)

/-- The exchange returns ENOMEM. After the application has destroyed its two messages three buffers of each pool are in use and stay so. -/
theorem exBad_lost : (exEnd exBad).2 = [some .ENOMEM] ∧ (exEnd exBad).1.ownedSmall = [] ∧
    (held [] (exEnd exBad).1.heap.smallLog).length = 3 ∧ (held [] (exEnd exBad).1.heap.mediumLog).length = 3 := by decide +kernel

/-- C131 is violated: an exchange whose request cannot be copied keeps the buffers of the part that was copied. -/
theorem C131_violated : ¬ C131_statement := by
  intro h
  have := (h 8 32 8 4 exSmall exMedium ex_created 32 false exBad _ _ exBad_run).small.length_eq
  exact absurd (exBad_lost.2.2.1.symm.trans (this.trans (congrArg List.length exBad_lost.2.1))) (by decide)

end FreeCoAP.Client.Buf
