import Verif.Server.LemmasSafe
import Verif.Server.Props5

/-! # No undefined behaviour (C54) -/

namespace FreeCoAP.Server

open FreeCoAP.Msg

/-- C54 in full: whatever datagrams arrive and whichever resources fail, the server of a
well-behaved application handles every event. (`ub` in the model is every read or write
outside an object and every use of a null pointer.) -/
def C54_statement (sx : Bool) : Prop :=
  ∀ id sepList pool (evs : List (Env × Event)), (∀ x ∈ evs, AppSafe x.1) → run sx (init id sepList pool) evs ≠ .ub

theorem exEnv_safe : AppSafe exEnv := by
  refine ⟨fun t m => ?_, fun t m resp b1 b2 body len rx h => ?_, fun id body e req resp h => ?_, fun id body e req resp => ?_,
    fun id body e req resp h => ?_⟩
  · exact plain_nil rfl
  · cases h
  · exact plain_of_ops h rfl
  · rfl
  · exact h

theorem exBlock_safe : AppSafe exBlock := by
  refine ⟨fun t m => ?_, fun t m resp b1 b2 body len rx h => ?_, fun id body e req resp h => ?_, fun id body e req resp => ?_,
    fun id body e req resp h => ?_⟩
  · exact plain_nil rfl
  · cases h; decide
  · exact plain_of_ops h rfl
  · rfl
  · exact h

/-- A GET of 1152 bytes, the size of the server's buffer, whose path is one segment. -/
def exFull : Bytes := [0x40, 1, 0, 1, 0xBE, 0x03, 0x6C] ++ List.replicate 1145 97

/-- A GET with an empty Block2 option. RFC 7959 allows it: it stands for block 0 of 16 bytes. -/
def exEmptyBlock : Bytes := [0x40, 1, 0, 6, 0xB1, 97, 0xC0]

/-- The code violates C54: a message without payload that fills the buffer makes the
parser read the byte after it, and an empty Block option makes the server of an
application that uses blockwise transfers read outside the option. -/
theorem C54_violated (sx : Bool) : ¬ C54_statement sx ∧
    run sx exInit [(exEnv, .datagram exA exFull)] = .ub ∧ run sx exInit [(exBlock, .datagram exA exEmptyBlock)] = .ub := by
  have h1 : run sx exInit [(exEnv, .datagram exA exFull)] = .ub := by cases sx <;> decide +kernel
  refine ⟨fun h => h 100 exSep exPool _ ?_ h1, h1, by cases sx <;> decide +kernel⟩
  intro x hx
  simp only [List.mem_cons, List.not_mem_nil, or_false] at hx
  rw [hx]
  exact exEnv_safe

/-- C54 for datagrams shorter than the buffer without empty Block options: every history
has an outcome. -/
theorem C54_no_ub_partial (sx : Bool) (id : Nat) (sepList : List Bytes) (pool : Mem.Pool) (evs : List (Env × Event))
    (ha : ∀ x ∈ evs, AppSafe x.1) (hd : ∀ x ∈ evs, ∀ a d, x.2 = .datagram a d → Harmless sx d) :
    ∃ s tr, run sx (init id sepList pool) evs = .ok (s, tr) := by
  obtain ⟨⟨s, tr⟩, h, -⟩ := run_good (sx := sx) (fun x hx => ⟨ha x hx, hd x hx⟩) (init_sok id sepList pool)
  exact ⟨s, tr, h⟩

/-- Decide `Harmless`. -/
def harmlessB (sx : Bool) (d : Bytes) : Bool :=
  decide (d.length < BUF_LEN) && (match parse sx (recvBuf d) (min d.length BUF_LEN) with
    | .ok m => m.ops.all (fun o => !((o.num == BLOCK1 || o.num == BLOCK2) && o.val.isEmpty))
    | _ => true)

theorem harmless_of {sx : Bool} {d : Bytes} (h : harmlessB sx d = true) : Harmless sx d := by
  unfold harmlessB at h
  rw [Bool.and_eq_true] at h
  refine ⟨of_decide_eq_true h.1, ?_⟩
  intro m hm o ho hn hv
  have h2 := h.2
  rw [show parse sx (recvBuf d) (min d.length BUF_LEN) = .ok m from hm] at h2
  have := List.all_eq_true.1 h2 o ho
  simp [hv] at this
  exact hn.elim this.1 this.2

/-- A history with downloads, an upload, a message for another path, a malformed message
and a timer. -/
def exSafe : List (Env × Event) :=
  exTwo ++ [(exBlock, .datagram exA exP0), (exBlock, .datagram exA exP3), (exEnv, .datagram [3] exGetB), (exEnv, .timer 2),
    (exEnv, .datagram [3] [0x40, 1, 0, 9, 0xF0])]

/-- The theorem applies to it. -/
example : ∃ s tr, run true exInit exSafe = .ok (s, tr) := by
  refine C54_no_ub_partial true 100 exSep exPool exSafe ?_ ?_
  · intro x hx
    have hx : x.1 = exBlock ∨ x.1 = exEnv := by
      simp only [exSafe, exTwo, List.cons_append, List.nil_append, List.mem_cons, List.not_mem_nil, or_false] at hx
      rcases hx with rfl | rfl | rfl | rfl | rfl | rfl | rfl | rfl | rfl | rfl <;> first | exact Or.inl rfl | exact Or.inr rfl
    rcases hx with h | h <;> rw [h]
    · exact exBlock_safe
    · exact exEnv_safe
  · have hall : (exSafe.all (fun x => match x.2 with | .datagram _ d => harmlessB true d | _ => true)) = true := by decide +kernel
    intro x hx a d hd
    have := List.all_eq_true.1 hall x hx
    rw [hd] at this
    exact harmless_of this

end FreeCoAP.Server
