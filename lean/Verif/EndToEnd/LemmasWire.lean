import Verif.EndToEnd.Spec
import Verif.Client.Props2
import Verif.Server.LemmasCollect
import Verif.Msg.LemmasTight

/-! # A message sent is read back -/

namespace FreeCoAP.EndToEnd

open FreeCoAP.Msg
open FreeCoAP.Server (header Header Built Carries Formats BlockSize recvBuf recvBuf_length BUF_LEN)

theorem Ordinary.opts {sx : Bool} : ∀ (ops : List Op) (prev : Nat), (∀ o ∈ ops, prev ≤ o.num) → Sorted ops →
    (∀ o ∈ ops, o.num < 65536 ∧ o.val.length < 65536 ∧ (sx = true → o.num < 141 ∧ o.val.length < 141)) →
    OptsOK prev ops ∧ SafeOps sx prev ops
  | [], _, _, _, _ => ⟨trivial, fun _ => trivial⟩
  | o :: os, prev, hp, hs, ho => by
    obtain ⟨h1, h2, h3⟩ := ho o (by simp)
    have h4 := hp o (by simp)
    obtain ⟨h5, h6⟩ := List.pairwise_cons.1 hs
    obtain ⟨i1, i2⟩ := Ordinary.opts (sx := sx) os o.num (fun x hx => h5 x hx) h6 (fun x hx => ho x (by simp [hx]))
    refine ⟨⟨h4, by omega, by omega, i1⟩, fun hsx => ⟨?_, ?_, i2 hsx⟩⟩
    · have := h3 hsx; omega
    · have := h3 hsx; omega

theorem carries_token {sx : Bool} {d : Bytes} {m : Msg} (h : Carries sx d m) : ∃ hd, header d = some hd ∧ hd.token = m.token := by
  have hl : min d.length 1152 ≤ (recvBuf d).length := by rw [recvBuf_length]; simp only [BUF_LEN]; omega
  unfold Carries parse at h
  rw [Out.bind_eq_ok] at h
  obtain ⟨hd, e1, h⟩ := h
  obtain ⟨h4, f1, f2, f3, f4, f5, f6, f7⟩ := parseHdr_sound hl e1
  rw [Out.bind_eq_ok] at h
  obtain ⟨tok, e2, h⟩ := h
  obtain ⟨g1, g2⟩ := parseToken_ok (by simp only [List.length_drop]; omega) e2
  rw [Out.bind_eq_ok] at h
  obtain ⟨⟨ops, n⟩, e3, h⟩ := h
  rw [Out.bind_eq_ok] at h
  obtain ⟨pl, e4, h⟩ := h
  rw [Out.bind_eq_ok] at h
  obtain ⟨u, e5, h⟩ := h
  simp only [Out.pure_eq, Out.ok.injEq] at h
  subst h
  rw [Server.recvBuf_take4 h4] at f7
  have hbuf : (recvBuf d).drop 4 = (d.take BUF_LEN).drop 4 ++ List.replicate (BUF_LEN - d.length) 0 := by
    unfold recvBuf
    rw [List.drop_append_of_le_length (by rw [List.length_take]; simp only [BUF_LEN] at h4 ⊢; omega)]
  rw [hbuf, List.take_append_of_le_length (by rw [List.length_drop, List.length_take]; simp only [BUF_LEN] at g1 ⊢; omega)] at g2
  match d, f7 with
  | x0 :: x1 :: x2 :: x3 :: rest, h =>
    simp only [List.take_succ_cons, List.take_zero, List.cons.injEq, and_true] at h
    obtain ⟨rfl, rfl, rfl, rfl⟩ := h
    refine ⟨_, rfl, ?_⟩
    have a1 : (UInt8.ofNat (64 * 1 + 16 * hd.type + hd.tokenLen)).toNat = 64 * 1 + 16 * hd.type + hd.tokenLen :=
      toNat_toByte _ (by omega)
    show rest.take ((UInt8.ofNat (64 * 1 + 16 * hd.type + hd.tokenLen)).toNat % 16) = tok
    rw [a1, g2, show (64 * 1 + 16 * hd.type + hd.tokenLen) % 16 = hd.tokenLen by omega]
    simp only [BUF_LEN, List.take_succ_cons, List.drop_succ_cons, List.drop_zero]
    rw [List.take_take, Nat.min_eq_left]
    simp only [List.length_cons] at g1; omega

/-- A datagram that carries a message and is the encoding of a message with ordinary options
carries this message. -/
theorem carries_eq {sx : Bool} {x m : Msg} {d : Bytes} (hb : Built x) (ho : Ordinary sx x) (hf : Formats x d) (hc : Carries sx d m) :
    m = x := by
  obtain ⟨buf, n, h, rfl⟩ := hf
  obtain ⟨hsh, hd⟩ := Server.format_take h
  have hlen : (enc x).length ≤ 1152 := by
    obtain ⟨-, hn, hw⟩ := format_ok h
    have := (wrs_eq_ok.1 hw).1
    rw [List.length_replicate] at this
    omega
  rw [hd] at hc
  obtain ⟨hd1, q1, q2, q3, q4, q5⟩ := hc.header
  have hh := Server.header_enc hb.type hb.cls hb.detail hb.msgId hb.token
  rw [hh] at q1
  cases q1
  simp only at q2 q3 q4 q5
  have hm := hc.fields.1
  obtain ⟨o1, o2⟩ := Ordinary.opts x.ops 0 (fun _ _ => Nat.zero_le _) hb.sorted ho
  have hwf : WF x := ⟨⟨hb.ver, hb.type, by rw [q3]; exact hm.cls, hb.detail, hb.msgId, hb.token⟩, hsh, o1⟩
  have hw : ∀ o ∈ x.ops, o.num < 2 ^ 32 := fun o h => by have := (ho o h).1; omega
  have henc := enc_encodes hwf hw
  unfold Carries recvBuf at hc
  rw [Nat.min_eq_left hlen, List.take_of_length_le hlen] at hc
  by_cases hlt : (enc x).length < BUF_LEN
  · have hne : List.replicate (BUF_LEN - (enc x).length) (0 : UInt8) ≠ [] := by
      intro e
      have := congrArg List.length e
      rw [List.length_replicate, List.length_nil] at this
      omega
    rw [parse_complete henc o2 hw _ (Or.inl hne)] at hc
    cases hc
    rfl
  · have e0 : BUF_LEN - (enc x).length = 0 := by omega
    rw [e0, List.replicate_zero, List.append_nil] at hc
    have hp := parse_complete henc o2 hw [0] (Or.inl (by simp))
    rcases parse_tight (sx := sx) 0 [] (enc x) with ⟨h1, -⟩ | ⟨h1, -⟩
    · rw [h1] at hc; cases hc
    · rw [h1, hp] at hc
      cases hc
      rfl

/-- The header fields and the token of what a datagram carries. -/
theorem carries_fields {sx : Bool} {x m : Msg} {d : Bytes} (hb : Built x) (hf : Formats x d) (hc : Carries sx d m) :
    m.token = x.token ∧ m.codeClass = x.codeClass ∧ m.codeDetail = x.codeDetail ∧ m.type = x.type ∧ m.msgId = x.msgId := by
  obtain ⟨buf, n, h, rfl⟩ := hf
  obtain ⟨hsh, hd⟩ := Server.format_take h
  rw [hd] at hc
  obtain ⟨hd1, q1, q2, q3, q4, q5⟩ := hc.header
  obtain ⟨hd2, p1, p2⟩ := carries_token hc
  have hh := Server.header_enc hb.type hb.cls hb.detail hb.msgId hb.token
  rw [hh] at q1 p1
  cases q1
  cases p1
  exact ⟨p2.symm, q3.symm, q4.symm, q2.symm, q5.symm⟩

/-- A Block option whose value is well formed. -/
theorem parseBlockOp_of {k : Nat} (hk : k = BLOCK1 ∨ k = BLOCK2) {blk : Block} {val : Bytes} (hl : val.length = 3)
    (hs : blockSpec val = some blk) : ∀ {ops : List Op}, ops.filter (fun o => o.num = k) = [⟨k, val⟩] → parseBlockOp k ops = .ok (some blk)
  | [], h => by cases h
  | o :: os, h => by
    unfold parseBlockOp
    rw [List.filter_cons] at h
    by_cases ho : o.num = k
    · rw [if_pos (by simpa using ho)] at h
      rw [List.cons.injEq] at h
      rw [if_pos (by rcases hk with rfl | rfl <;> simp [ho])]
      have hv : o.val = val := by rw [h.1]
      have hlen : o.len = val.length := by rw [h.1]
      rw [hv, hlen, parseBlockVal_eq (by omega) (by omega), hs]
      rfl
    · rw [if_neg (by simpa using ho)] at h
      rw [if_neg (by
        rintro (⟨h1, h2⟩ | ⟨h1, h2⟩)
        · exact ho (h1.trans h2.symm)
        · exact ho (h1.trans h2.symm))]
      exact parseBlockOp_of hk hl hs h

theorem filter_values {k : Nat} {m : Msg} {val : Bytes} (h : Client.values k m = [val]) :
    m.ops.filter (fun o => o.num = k) = [⟨k, val⟩] := by
  unfold Client.values at h
  match hf : m.ops.filter (fun o => o.num = k) with
  | [] => rw [hf] at h; cases h
  | [o] =>
    rw [hf] at h
    have ho : o ∈ m.ops.filter (fun o => o.num = k) := by rw [hf]; simp
    have := (List.mem_filter.1 ho).2
    simp only [List.map_cons, List.map_nil, List.cons.injEq, and_true] at h
    have e : o.num = k := by simpa using this
    obtain ⟨n, v⟩ := o
    simp only at e h
    rw [hf, e, h]
  | o :: p :: os => rw [hf] at h; cases h

end FreeCoAP.EndToEnd
