import Verif.Server.LemmasEnough
import Verif.Server.PropsBuf

/-! # The number of buffers that a server needs (C132) -/

namespace FreeCoAP.Server.Buf

open FreeCoAP.Msg.Heap
open FreeCoAP.Mem (Pool Call held)

/-- C132, in full: with pools of the sizes that the samples use (128 buffers of 256 bytes and 128 buffers of 1024 bytes) no history of datagrams makes
a pool refuse a request, when the responses have at most six options. -/
def C132_statement : Prop :=
  ∀ (small medium : Pool), Created 128 256 128 1024 small medium → ∀ (S : Nat) (sx : Bool) (es : List Event) (s : State), S ≤ 256 →
    (∀ t, Event.turn t ∈ es → (∀ mem len, t.arrives = some (mem, len) → len < mem.length ∧ len ≤ 1152) ∧ Modest 6 1024 0 t.edits) →
    run S sx (init 8 (Heap.init small medium)) es = .ok s → Unrefused s.heap

/-- C132, proved part: a server with `n` transactions, whose requests and responses have at most `k` options and nothing longer than `l` bytes, needs
`(2 * n + 2) * k` buffers of the small pool and `(2 * n + 2) * (k + 1)` buffers of `l` bytes of the medium pool, besides those of the application. Then
in every history no request for a buffer is refused, nothing undefined happens, and the buffers in use are those of the recorded messages and of the
application. -/
theorem C132_enough_partial {ns ls nm lm : Nat} {small medium : Pool} (c : Created ns ls nm lm small medium) {S k l n : Nat} {sx : Bool}
    (cs : List Cmd) (es : List Event) : let p := Msg.Heap.run S sx (start small medium) cs
    Unrefused p.heap → S ≤ ls → l ≤ lm → p.ownedSmall.length + (2 * n + 2) * k ≤ ns → p.ownedMedium.length + (2 * n + 2) * (k + 1) ≤ nm →
    AllSmall sx k l es →
    ∃ s, run S sx (init n p.heap) es = .ok s ∧ Unrefused s.heap ∧ Exact s p.ownedSmall p.ownedMedium ∧ s.small.length ≤ 2 * n * k ∧
      s.medium.length ≤ 2 * n * (k + 1) := by
  intro p hu h1 h2 h3 h4 he
  obtain ⟨hg, i0⟩ := c.init
  have i := Msg.Heap.run_inv hg S sx cs (start small medium) i0
  have hl : p.heap.lost = [] := by
    apply Decidable.byContradiction
    intro hne
    rcases (le_run S sx cs (start small medium)).2 hne with h | ⟨l, h⟩
    · exact h rfl
    · exact hu.2 l h
  have hn : (init n p.heap).slots.length = n := List.length_replicate ..
  obtain ⟨s, e1, i1, l1⟩ := run_enough (S := S) (sx := sx) (k := k) (l := l) hg es (init_enough n ⟨i, hl, hu⟩) h1 h2 (by rw [hn]; exact h3)
    (by rw [hn]; exact h4) he
  rw [hn] at l1
  have a := i1.heap.inv.permS
  rw [i1.heap.lost, List.append_nil] at a
  refine ⟨s, e1, i1.heap.free, ⟨a, i1.heap.inv.permM, i1.heap.inv.cleanS, i1.heap.inv.cleanM i1.heap.lost⟩, ?_, ?_⟩
  · have := length_flatMap_le (fun x => x.req.ownSmall ++ x.resp.ownSmall) (2 * k) s.slots (fun x hx => slot_small (i1.fits x hx))
    rw [l1, ← Nat.mul_assoc, Nat.mul_comm n 2] at this
    exact this
  · have := length_flatMap_le (fun x => x.req.ownMedium ++ x.resp.ownMedium) (2 * (k + 1)) s.slots (fun x hx => slot_medium (i1.fits x hx))
    rw [l1, ← Nat.mul_assoc, Nat.mul_comm n 2] at this
    exact this

/-- C132 for the sizes that the samples use: no request is refused while messages have at most six options. -/
theorem C132_samples_partial {small medium : Pool} (c : Created 128 256 128 1024 small medium) {S : Nat} {sx : Bool} (es : List Event) (hS : S ≤ 256)
    (he : AllSmall sx 6 1024 es) : ∃ s, run S sx (init 8 (Heap.init small medium)) es = .ok s ∧ Unrefused s.heap := by
  obtain ⟨s, e, u, -⟩ := C132_enough_partial c (S := S) (k := 6) (l := 1024) (n := 8) [] es
    ⟨(by intro l h; cases h), (by intro l h; cases h)⟩ hS (Nat.le_refl _)
    (show 0 + (2 * 8 + 2) * 6 ≤ 128 by decide) (show 0 + (2 * 8 + 2) * (6 + 1) ≤ 128 by decide) he
  exact ⟨s, e, u⟩

/-- Pools of the sizes that the samples use. -/
def sampleSmall : Pool := ⟨1000, 128, 256, 900000, List.replicate 16 0⟩
def sampleMedium : Pool := ⟨100000, 128, 1024, 910000, List.replicate 16 0⟩

theorem sample_created : Created 128 256 128 1024 sampleSmall sampleMedium :=
  ⟨⟨2 ^ 64, [], _, some 1000, some 900000, rfl⟩, ⟨2 ^ 64, [], _, some 100000, some 910000, rfl⟩, Or.inl (by decide)⟩

def sampleEnd (es : List Event) : State := match run 32 false (init 8 (Heap.init sampleSmall sampleMedium)) es with
  | .ok s => s
  | _ => init 8 (Heap.init sampleSmall sampleMedium)

instance (sx : Bool) (k l : Nat) (mem : Bytes) (len : Nat) : Decidable (Few sx k l mem len) :=
  decidable_of_iff ((optionsIn sx mem len).1.length ≤ k ∧ (∀ op ∈ (optionsIn sx mem len).1, op.val.length ≤ l) ∧
    ((optionsIn sx mem len).2.1.head? = some 0xff → (optionsIn sx mem len).2.2 ≤ l + 1))
    ⟨fun h => ⟨h.1, h.2.1, h.2.2⟩, fun h => ⟨h.count, h.value, h.payload⟩⟩

/-- A `PUT` with a payload of 1024 bytes, a path and a token. -/
def exPutAll : Bytes := [0x41, 3, 0, 9, 7, 0xB1, 97, 0xff] ++ List.replicate 1024 5

/-- Requests with such a payload are small enough. -/
example : AllSmall false 6 1024 (exEvents ++ [.turn (exTurn true exPutAll)]) := by
  have key : ∀ b d, d ∈ [[0x40, 1, 0, 9, 0xB1, 97], [0x40, 1, 0, 10, 0xB1, 98], exPutAll] → Small false 6 1024 (exTurn b d) := by
    intro b d hd
    refine ⟨fun mem len e => ?_, ?_⟩
    · simp only [exTurn, Option.some.injEq, Prod.mk.injEq] at e
      obtain ⟨rfl, rfl⟩ := e
      refine ⟨by simp, ?_⟩
      revert d
      decide +kernel
    · simp [exTurn, Modest, short, grow]
  intro t ht
  simp only [exEvents, List.cons_append, List.nil_append, List.mem_cons, List.not_mem_nil, or_false, Event.turn.injEq] at ht
  rcases ht with rfl | rfl | rfl | rfl <;> exact key _ _ (by simp)

/-- A request with 129 empty options. -/
def exMany : Bytes := [0x40, 1, 0, 9] ++ List.replicate 129 0

/-- C132 is violated: one datagram with 129 options uses up the small pool. -/
theorem C132_violated : ¬ C132_statement := by
  intro h
  have e : run 32 false (init 8 (Heap.init sampleSmall sampleMedium)) [.turn (exTurn false exMany)] = .ok (sampleEnd [.turn (exTurn false exMany)]) := by
    have e0 : (match run 32 false (init 8 (Heap.init sampleSmall sampleMedium)) [.turn (exTurn false exMany)] with | .ok _ => true | _ => false) = true := by
      decide +kernel
    unfold sampleEnd
    split
    · assumption
    · rename_i hn
      split at e0
      · rename_i s hs; exact absurd hs (hn s)
      · cases e0
  have u := h sampleSmall sampleMedium sample_created 32 false [.turn (exTurn false exMany)] _ (by decide) (by
    intro t ht
    simp only [List.mem_cons, List.not_mem_nil, or_false, Event.turn.injEq] at ht
    subst ht
    refine ⟨fun mem len e => ?_, by simp [exTurn, Modest, short, grow]⟩
    simp only [exTurn, Option.some.injEq, Prod.mk.injEq] at e
    obtain ⟨rfl, rfl⟩ := e
    decide +kernel) e
  have x : (Call.alloc 32, none) ∈ (sampleEnd [.turn (exTurn false exMany)]).heap.smallLog := by decide +kernel
  exact u.1 32 x

/-- A request of `j` options, which is answered with one option. -/
def exOptions (slot j : Nat) : Event :=
  .turn { exTurn false ([0x40, 1, 0, UInt8.ofNat (slot + 1)] ++ List.replicate j 0) with slot := slot, edits := [.fields 0 2 5 0 [], .addOp 12 [0]] }

/-- The requests of eight clients, each of ten options. -/
def exEight : List Event := (List.range 8).map fun i => exOptions i 10

def refusedB (s : State) : Bool := s.heap.smallLog.any fun e => match e with | (.alloc _, none) => true | _ => false

/-- A request that a fresh server takes is refused when eight other clients have made one request each: their messages keep their buffers. -/
theorem C132_held : refusedB (sampleEnd [exOptions 0 60]) = false ∧ refusedB (sampleEnd exEight) = false ∧ (sampleEnd exEight).small.length = 88 ∧
    refusedB (sampleEnd (exEight ++ [exOptions 0 60])) = true := by decide +kernel

end FreeCoAP.Server.Buf
