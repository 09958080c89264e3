import Verif.Client.LemmasEnough

/-! # The number of buffers that a client needs (C133) -/

namespace FreeCoAP.Client.Buf

open FreeCoAP.Msg.Heap
open FreeCoAP.Mem (Pool Call held)

/-- C133: a blockwise exchange of a request of at most `k` options, in which nothing is longer than `l` bytes, needs `2 * (k + 2)` buffers of the small
pool and `2 * (k + 3)` of the medium pool besides those in use: for the copy of the request with the options Block1 and Block2, and for the response
(whose datagrams have at most `k + 2` options). Then, after every history in which nothing was refused, no request for a buffer is refused in the
exchange, nothing undefined happens, and the buffers in use are those of the messages of the application. -/
theorem C133_enough {ns ls nm lm : Nat} {small medium : Pool} (c : Created ns ls nm lm small medium) {S k l : Nat} {sx : Bool} (as : List Act)
    {p : Prog} {st : List (Option Err)} (h : run S sx (start small medium) as = .ok (p, st)) (hn : some Err.ENOMEM ∉ st) (hu : Unrefused p.heap)
    (h1 : S ≤ ls) (h2 : l ≤ lm) {a b : Nat} {req resp : HMsg} {get hv more : Bool} {rs1 rs2 : List Round} (ha : p.msgs[a]? = some req)
    (hb : p.msgs[b]? = some resp) (hab : a ≠ b) (fq : Fits k l req) (fr : Fits (k + 2) l resp) (hs : ∀ r ∈ rs1 ++ rs2, Small sx (k + 2) l r)
    (h3 : p.ownedSmall.length + 2 * (k + 2) ≤ ns) (h4 : p.ownedMedium.length + 2 * (k + 3) ≤ nm) :
    ∃ p' st', step S sx p (.blockwise a b get hv more rs1 rs2) = .ok (p', st') ∧ Unrefused p'.heap ∧ Exact p' := by
  obtain ⟨hg, i0⟩ := c.init
  have i := run_use hg (p := start small medium) (h0 := Heap.init small medium) ⟨i0, Le.refl _⟩ h hn
  have hl : p.heap.lost = [] := by
    apply Decidable.byContradiction
    intro hne
    rcases i.le.2 hne with h | ⟨l, h⟩
    · exact h rfl
    · exact hu.2 l h
  have exact_of : ∀ q : Prog, N ⟨small.buf, ns, ls, medium.buf, nm, lm⟩ q.heap q.ownedSmall q.ownedMedium → Unrefused q.heap ∧ Exact q := by
    intro q j
    have hs := j.inv.permS
    rw [j.lost, List.append_nil] at hs
    exact ⟨j.free, hs, j.inv.permM, j.inv.cleanS, j.inv.cleanM j.lost⟩
  have jp : N _ p.heap p.ownedSmall p.ownedMedium := ⟨i.inv, hl, hu⟩
  have q1 := fun m' => flatMap_set_perm HMsg.ownSmall p.msgs b resp m' hb
  have q2 := fun m' => flatMap_set_perm HMsg.ownMedium p.msgs b resp m' hb
  have l1 := (q1 zero).1.length_eq
  have l2 := (q2 zero).1.length_eq
  rw [List.length_append] at l1 l2
  have ow1 : p.ownedSmall.length = (p.msgs.flatMap HMsg.ownSmall).length := rfl
  have ow2 : p.ownedMedium.length = (p.msgs.flatMap HMsg.ownMedium).length := rfl
  obtain ⟨x, e, hx⟩ := blockwise_enough (S := S) (sx := sx) (get := get) (hv := hv) (more := more) (rs1 := rs1) (rs2 := rs2) (k := k) hg
    ⟨h1, h2, by dsimp only; omega, by dsimp only; omega⟩ fq (jp.perm (q1 zero).1 (q2 zero).1) fr
    (fun r hr => hs r (List.mem_append_left _ hr)) (fun r hr => hs r (List.mem_append_right _ hr))
  unfold step
  dsimp only
  rw [ha, hb]
  dsimp only
  rw [if_neg hab, e]
  cases x with
  | none => exact ⟨_, _, rfl, exact_of p jp⟩
  | some r =>
    have j := hx r rfl
    exact ⟨_, _, rfl, exact_of ⟨r.heap, p.msgs.set b r.resp⟩ (j.inv.perm (q1 r.resp).2.symm (q2 r.resp).2.symm)⟩

/-- A medium pool of 16 buffers of 4 bytes. -/
def exMedium16 : Pool := ⟨5000, 16, 4, 6000, [0, 0]⟩

theorem ex_created16 : Created 8 32 16 4 exSmall exMedium16 :=
  ⟨⟨2 ^ 64, [], _, some 1000, some 2000, rfl⟩, ⟨2 ^ 64, [], _, some 5000, some 6000, rfl⟩, Or.inl (by decide)⟩

/-- The two messages after `exMake 1`. -/
def exProg : Prog := Msg.Heap.run 32 false (start exSmall exMedium16) [.create, .create, .addOp 0 11 [97]]

theorem exProg_run : run 32 false (start exSmall exMedium16) (exMake 1) = .ok (exProg, []) := rfl

def exReq : HMsg := ⟨1, 0, 0, 0, 0, [], [⟨1000, 5000, 11, [97]⟩], none⟩

/-- The request of one option, a response of three options and the sizes of the example fulfil the hypotheses. -/
example : ∃ p' st', step 32 false exProg (.blockwise 0 1 true false false [] [{ exRound with datagrams := [([0x60, 0x45, 0, 1, 0x11, 7, 0x10, 0x10, 0], 8)] }]) =
    .ok (p', st') ∧ Unrefused p'.heap ∧ Exact p' := by
  refine C133_enough ex_created16 (k := 1) (l := 4) (req := exReq) (resp := create) (exMake 1) exProg_run (by simp) ⟨?_, ?_⟩ (by decide) (by decide)
    (by decide +kernel) (by decide +kernel) (by decide) ⟨by decide, by decide, by decide⟩ ⟨by decide, (by intro o h; cases h), by decide⟩ ?_
    (by decide +kernel) (by decide +kernel)
  · intro l h
    have e : exProg.heap.smallLog = [(.alloc 32, some 1000)] := by decide +kernel
    rw [e] at h
    simp at h
  · intro l h
    have e : exProg.heap.mediumLog = [(.alloc 1, some 5000)] := by decide +kernel
    rw [e] at h
    simp at h
  · intro r hr
    rw [List.nil_append, List.mem_singleton] at hr
    subst hr
    refine ⟨by decide, by decide, by decide, ?_⟩
    intro mem len hm
    simp only [List.mem_singleton, Prod.mk.injEq] at hm
    obtain ⟨rfl, rfl⟩ := hm
    exact ⟨by decide, by decide +kernel, by decide +kernel, by decide +kernel⟩

/-- The buffers for a copy of the request itself are not enough: a request of four options, and four buffers left. -/
theorem C133_needed : (exEnd (exMake 4)).1.ownedSmall.length = 4 ∧ (exEnd (exMake 4 ++ [.blockwise 0 1 true false false [] [exRound]])).2 = [some .ENOMEM] := by
  decide +kernel

end FreeCoAP.Client.Buf
