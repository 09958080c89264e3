import Verif.Server.SpecRfc
import Verif.Server.Props4

/-! # The blocks of a resource are as RFC 7959 says (C125) -/

namespace FreeCoAP.Server

open FreeCoAP.Msg

/-- C125, in full: after the application has answered a GET request with a body, and until it is called again for this sender, what is sent to the sender is an Empty
message, an error response, or a response 2.05 with a block of the body as in RFC 7959. -/
def C125_statement : Prop :=
  ∀ (sx : Bool) (evs : List (Env × Event)) (s0 s1 s2 : Srv) (tr0 tr2 : List (List Obs)), Reach sx evs s0 tr0 →
    ∀ (env1 : Env) (ev1 : Event) (o1 : List Obs) (e1 : Option Err), step sx s0 env1 ev1 = .ok (s1, o1, e1) →
    ∀ (a : Addr) (m1 : Msg), (a, m1) ∈ calls o1 → m1.codeDetail = 1 →
    ∀ (resp : Msg) (b1 b2 : Nat) (body : Bytes) (bodyLen : Nat) (rx : Option Nat),
    (∀ t, env1.handle t m1 = .blockwise resp b1 b2 body bodyLen rx) → NoBlock2 resp → AppOK env1 →
    ∀ (evs2 : List (Env × Event)), (∀ x ∈ evs2, AppOK x.1) → run sx s1 evs2 = .ok (s2, tr2) → (∀ o ∈ tr2, ∀ m, (a, m) ∉ calls o) →
    ∀ o ∈ o1 :: tr2, ∀ r, (a, r) ∈ sends o → Empty r ∨ IsError4 r ∨ IsContent r ∧ ∃ x, Formats x r ∧ RfcBlock (body.take bodyLen) b2 x

/-- C125, partial: the block is the one that the option says, the flag is right if the size of the body is no multiple of the size of the blocks, and the code is right for
the last block. If the size is a multiple, the flag is also set in the block that ends the body. -/
theorem C125_blocks_partial (sx : Bool) (evs : List (Env × Event)) (s0 s1 s2 : Srv) (tr0 tr2 : List (List Obs)) (hr : Reach sx evs s0 tr0)
    (env1 : Env) (ev1 : Event) (o1 : List Obs) (e1 : Option Err) (h1 : step sx s0 env1 ev1 = .ok (s1, o1, e1))
    (a : Addr) (m1 : Msg) (hc : (a, m1) ∈ calls o1) (hget : m1.codeDetail = 1)
    (resp : Msg) (b1 b2 : Nat) (body : Bytes) (bodyLen : Nat) (rx : Option Nat)
    (hh : ∀ t, env1.handle t m1 = .blockwise resp b1 b2 body bodyLen rx) (hnb : NoBlock2 resp) (happ1 : AppOK env1)
    (evs2 : List (Env × Event)) (happ : ∀ x ∈ evs2, AppOK x.1) (h2 : run sx s1 evs2 = .ok (s2, tr2))
    (hn : ∀ o ∈ tr2, ∀ m, (a, m) ∉ calls o) :
    ∀ o ∈ o1 :: tr2, ∀ r, (a, r) ∈ sends o → Empty r ∨ IsError4 r ∨
      ∃ x val num more size, Formats x r ∧ x.ops.filter (fun o => o.num = BLOCK2) = [⟨BLOCK2, val⟩] ∧ blockSpec val = some ⟨num, more, size⟩ ∧ size ≤ b2 ∧
        x.payload = ((body.take bodyLen).drop (num * size)).take size ∧ num * size ≤ (body.take bodyLen).length ∧
        (more = true ↔ (num + 1) * size ≤ (body.take bodyLen).length) ∧
        ((body.take bodyLen).length % size ≠ 0 → RfcBlock (body.take bodyLen) b2 x) ∧ (more = false → IsContent r) := by
  intro o ho r hr'
  rcases C28_only_blocks sx evs s0 s1 s2 tr0 tr2 hr env1 ev1 o1 e1 h1 a m1 hc hget resp b1 b2 body bodyLen rx hh hnb happ1 evs2 happ h2 hn o ho r hr'
    with h | h | ⟨x, num, size, hB, hf, hs, hx⟩
  · exact Or.inl h
  · exact Or.inr (Or.inl h)
  · obtain ⟨val, g1, g2⟩ := hx.option
    refine Or.inr (Or.inr ⟨x, val, num, _, size, hf, g1, g2, hs, hx.payload, hx.inside, by simp, ?_, ?_⟩)
    · intro hmod
      refine ⟨val, num, _, size, g1, g2, hs, hx.payload, ?_⟩
      rw [decide_eq_true_iff]
      constructor
      · intro hle
        rcases Nat.lt_or_ge ((num + 1) * size) (body.take bodyLen).length with h | h
        · exact h
        · exfalso
          have he : (body.take bodyLen).length = (num + 1) * size := Nat.le_antisymm h hle
          rw [he, Nat.mul_mod_left] at hmod
          exact hmod rfl
      · exact Nat.le_of_lt
    · intro hm
      have hd := hx.detail
      rw [if_neg (of_decide_eq_false hm)] at hd
      obtain ⟨buf, n, k1, rfl⟩ := hf
      rw [(format_take k1).2]
      exact ⟨_, hB.header, hx.cls, hd⟩

/-- The first block of the body of 40 bytes in the examples of C28, with the code 2.31. -/
def exSent0 : Bytes := [0x60, 0x5f, 0, 5, 0xd3, 10, 0, 0, 8, 0xff, 0, 1, 2, 3, 4, 5, 6, 7, 8, 9, 10, 11, 12, 13, 14, 15]

theorem exSent0_sent : ∃ s1 e1 o1, step true exInit exBlock (.datagram exA exB0) = .ok (s1, o1, e1) ∧ (exA, exM0) ∈ calls o1 ∧ (exA, exSent0) ∈ sends o1 := by
  have h : test (step true exInit exBlock (.datagram exA exB0)) (fun r => decide ((exA, exM0) ∈ calls r.2.1 ∧ (exA, exSent0) ∈ sends r.2.1)) = true := by
    decide +kernel
  obtain ⟨⟨s1, o1, e1⟩, h, h'⟩ := test_ok h
  exact ⟨s1, e1, o1, h, of_decide_eq_true h'⟩

/-- C125 is violated: all blocks but the last are sent with the code 2.31. -/
theorem C125_violated : ¬ C125_statement := by
  intro hst
  obtain ⟨s1, e1, o1, h, hc, hs⟩ := exSent0_sent
  have hh : header exSent0 = some ⟨2, 2, 31, 5, []⟩ := by decide
  rcases hst true [] exInit s1 s1 [] [] ⟨_, _, _, rfl⟩ exBlock _ o1 e1 h exA exM0 hc rfl create 16 16 ((List.range 40).map UInt8.ofNat) 40 (some 1)
    (fun _ => rfl) (fun o ho => by cases ho) exBlock_app [] (fun x hx => by cases hx) rfl (fun o ho => by cases ho) o1 (by simp) exSent0 hs
    with h | ⟨h', k1, k2⟩ | ⟨⟨h', k1, k2, k3⟩, -⟩
  · have hl : exSent0.length = 26 := rfl
    rcases h with ⟨i, -, h⟩ | ⟨i, -, h⟩ | h
    · rw [h] at hl; cases hl
    · rw [h] at hl; cases hl
    · rw [h] at hl; cases hl
  · rw [hh] at k1; cases k1; cases k2
  · rw [hh] at k1; cases k1; cases k3

/-- An application whose body of 16 bytes is one block. -/
def exExact : Env := { exEnv with handle := fun _ _ => .blockwise create 16 16 ((List.range 16).map UInt8.ofNat) 16 (some 1) }

/-- The flag is violated as well: the only block of a body of 16 bytes says that there are more. -/
theorem C125_violated_more : test (step true exInit exExact (.datagram exA exB0)) (fun r => decide (sends r.2.1 = [(exA, exSent0)])) = true ∧
    ∃ x, Carries true exSent0 x ∧ x.ops = [⟨BLOCK2, [0, 0, 8]⟩] ∧ blockSpec [0, 0, 8] = some ⟨0, true, 16⟩ ∧ x.payload = (List.range 16).map UInt8.ofNat := by
  refine ⟨by decide +kernel, ⟨1, ACK, 2, 31, 5, [], [⟨BLOCK2, [0, 0, 8]⟩], (List.range 16).map UInt8.ofNat⟩, ?_, rfl, by decide, rfl⟩
  unfold Carries
  decide +kernel

end FreeCoAP.Server
