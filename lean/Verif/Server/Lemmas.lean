import Verif.Server.Spec
import Verif.Msg.Props

/-! # Lemmas on the server: sending, receiving, outcomes of an exchange -/

namespace FreeCoAP.Server

open FreeCoAP.Msg

/-! ## Messages -/

theorem parse_fields {sx : Bool} {mem : Bytes} {len : Nat} {m : Msg} (hl : len ≤ mem.length)
    (h : parse sx mem len = .ok m) : Fields m ∧ Shape m := by
  unfold parse at h
  rw [Out.bind_eq_ok] at h
  obtain ⟨hd, e1, h⟩ := h
  obtain ⟨h4, f1, f2, f3, f4, f5, f6, f7⟩ := parseHdr_sound hl e1
  rw [Out.bind_eq_ok] at h
  obtain ⟨tok, e2, h⟩ := h
  obtain ⟨g1, g2⟩ := parseToken_ok (by simp; omega) e2
  rw [Out.bind_eq_ok] at h
  obtain ⟨⟨ops, n⟩, e3, h⟩ := h
  rw [Out.bind_eq_ok] at h
  obtain ⟨pl, e4, h⟩ := h
  rw [Out.bind_eq_ok] at h
  obtain ⟨u, e5, h⟩ := h
  simp only [Out.pure_eq, Out.ok.injEq] at h
  subst h
  have ht : tok.length = hd.tokenLen := by rw [g2]; simp; omega
  exact ⟨⟨f1, f2, f4, f5, f6, by simp only; omega⟩, (check_ok_iff _).1 e5⟩

theorem recvBuf_length (d : Bytes) : (recvBuf d).length = BUF_LEN := by
  simp only [recvBuf, List.length_append, List.length_take, List.length_replicate, BUF_LEN]; omega

theorem Carries.fields {sx : Bool} {d : Bytes} {m : Msg} (h : Carries sx d m) : Fields m ∧ Shape m :=
  parse_fields (by rw [recvBuf_length]; simp only [BUF_LEN]; omega) h

theorem Carries.unique {sx : Bool} {d : Bytes} {m m' : Msg} (h : Carries sx d m) (h' : Carries sx d m') : m = m' := by
  unfold Carries at h h'
  rw [h] at h'
  injection h'

theorem header_enc {m : Msg} (h1 : m.type < 4) (h2 : m.codeClass < 8) (h3 : m.codeDetail < 32)
    (h4 : m.msgId < 65536) (h5 : m.token.length ≤ 8) :
    header (enc m) = some ⟨m.type, m.codeClass, m.codeDetail, m.msgId, m.token⟩ := by
  unfold enc encHdr
  rw [hdr0_or _ h1 _ (by omega), hdr1_or _ h2 _ h3, be16_eq _ h4]
  simp only [List.cons_append, List.nil_append, List.append_assoc, header]
  have a1 : (UInt8.ofNat (64 + 16 * m.type + m.token.length)).toNat = 64 + 16 * m.type + m.token.length :=
    toNat_toByte _ (by omega)
  have a2 : (UInt8.ofNat (32 * m.codeClass + m.codeDetail)).toNat = 32 * m.codeClass + m.codeDetail :=
    toNat_toByte _ (by omega)
  have a3 : (UInt8.ofNat (m.msgId / 256)).toNat = m.msgId / 256 := toNat_toByte _ (by omega)
  have a4 : (UInt8.ofNat (m.msgId % 256)).toNat = m.msgId % 256 := toNat_toByte _ (by omega)
  rw [a1, a2, a3, a4]
  have b1 : (64 + 16 * m.type + m.token.length) / 16 % 4 = m.type := by omega
  have b2 : (64 + 16 * m.type + m.token.length) % 16 = m.token.length := by omega
  have b3 : (32 * m.codeClass + m.codeDetail) / 32 = m.codeClass := by omega
  have b4 : (32 * m.codeClass + m.codeDetail) % 32 = m.codeDetail := by omega
  have b5 : 256 * (m.msgId / 256) + m.msgId % 256 = m.msgId := by omega
  rw [b1, b2, b3, b4, b5]
  simp

theorem encHdr_mask (m : Msg) : encHdr m = encHdr { m with codeClass := m.codeClass % 8, codeDetail := m.codeDetail % 32 } := by
  have h1 : m.codeClass &&& 7 = m.codeClass % 8 := Nat.and_two_pow_sub_one_eq_mod m.codeClass 3
  have h2 : m.codeDetail &&& 31 = m.codeDetail % 32 := Nat.and_two_pow_sub_one_eq_mod m.codeDetail 5
  have h3 : m.codeClass % 8 &&& 7 = m.codeClass % 8 % 8 := Nat.and_two_pow_sub_one_eq_mod _ 3
  have h4 : m.codeDetail % 32 &&& 31 = m.codeDetail % 32 % 32 := Nat.and_two_pow_sub_one_eq_mod _ 5
  unfold encHdr
  simp only [h1, h2, h3, h4, Nat.mod_mod]

/-- Whatever the code of the message is. -/
theorem header_enc' {m : Msg} (h1 : m.type < 4) (h4 : m.msgId < 65536) (h5 : m.token.length ≤ 8) :
    header (enc m) = some ⟨m.type, m.codeClass % 8, m.codeDetail % 32, m.msgId, m.token⟩ := by
  have h : enc m = enc { m with codeClass := m.codeClass % 8, codeDetail := m.codeDetail % 32 } := by
    unfold enc; rw [encHdr_mask]; rfl
  rw [h]
  exact header_enc (m := { m with codeClass := m.codeClass % 8, codeDetail := m.codeDetail % 32 })
    h1 (by simp only; omega) (by simp only; omega) h4 h5

theorem enc_empty {type id : Nat} (h1 : type < 4) (h2 : id < 65536) :
    enc (emptyMsg type id) = [UInt8.ofNat (64 + 16 * type), 0, UInt8.ofNat (id / 256), UInt8.ofNat (id % 256)] := by
  simp only [enc, encHdr, emptyMsg, create, destroyed, encOps, encPayload, List.length_nil, List.append_nil, if_true]
  rw [hdr0_or _ h1 _ (by omega), be16_eq _ h2]
  rfl

theorem enc_ack {id : Nat} (h2 : id < 65536) : enc (emptyMsg ACK id) = emptyAck id := enc_empty (by decide) h2
theorem enc_rst {id : Nat} (h2 : id < 65536) : enc (emptyMsg RST id) = reset id := enc_empty (by decide) h2

theorem uriStr_eq (n : Nat) (ops : List Op) (hn : 1 < n) : uriStr n ops = .ok (cpath (n - 1) ops) := by
  obtain ⟨b', h1, -, h3⟩ := C15_path_string_partial ops (List.replicate n 0) n (by simp) (Or.inl hn)
  unfold uriStr
  rw [h1, Out.bind_ok]
  have hl : b'.length = n := by
    have h2 : b'.drop n = [] := by
      obtain ⟨b'', h1', h2', -⟩ := C15_path_string_partial ops (List.replicate n 0) n (by simp) (Or.inl hn)
      rw [h1] at h1'
      injection h1' with h1'
      injection h1' with h1' _
      subst h1'
      rw [h2']; simp
    have h4 : b'.length ≤ n := by simpa using h2
    have h5 := congrArg List.length h3
    simp only [List.length_take, List.length_append, List.length_replicate] at h5
    omega
  rw [List.take_of_length_le (by omega)] at h3
  simp only [Out.pure_eq, Out.ok.injEq]
  rw [h3, cpath]
  generalize (pathStr ops).take (n - 1) = l
  have hk : ∃ k, n - min (pathStr ops).length (n - 1) = k + 1 := ⟨n - min (pathStr ops).length (n - 1) - 1, by omega⟩
  obtain ⟨k, hk⟩ := hk
  rw [hk, List.replicate_succ]
  generalize List.replicate k (0 : UInt8) = z
  induction l with
  | nil => simp
  | cons a as ih =>
    by_cases ha : a = 0
    · subst ha; simp
    · simp [ha]
      simpa using ih

theorem isSep_eq (sep : List Bytes) (m : Msg) : isSep sep m = .ok (decide (Separate sep m)) := by
  unfold isSep
  rw [uriStr_eq _ _ (by decide), Out.bind_ok]
  simp only [Out.pure_eq, Separate, List.contains_eq_mem]

theorem copy_ok_fields {src q : Msg} (h : copy create src = .ok q) :
    q.ver = src.ver ∧ q.type = src.type ∧ q.codeClass = src.codeClass ∧ q.codeDetail = src.codeDetail ∧
    q.msgId = src.msgId ∧ q.token = src.token ∧ q.payload = src.payload := by
  unfold copy at h
  simp only at h
  have key : ∀ (ops : List Op) (dst : Msg), copyOps dst ops = { dst with ops := (copyOps dst ops).ops } := by
    intro ops
    induction ops with
    | nil => intro dst; rfl
    | cons o os ih => intro dst; unfold copyOps; rw [ih]; rfl
  unfold setType setCode setMsgId setToken at h
  split at h
  · cases h
  rw [Out.bind_ok] at h
  split at h
  · cases h
  split at h
  · cases h
  rw [Out.bind_ok] at h
  split at h
  · cases h
  rw [Out.bind_ok] at h
  split at h
  · cases h
  rw [Out.bind_ok] at h
  simp only [Out.pure_eq, Out.ok.injEq] at h
  subst h
  rw [key]
  simp [setPayload]

theorem Built.create : Built Msg.create := by constructor <;> simp [Msg.create, destroyed, Sorted]
theorem Built.setType {m m' : Msg} {t : Nat} (h : Built m) (e : Msg.setType m t = .ok m') : Built m' := by
  unfold Msg.setType at e
  split at e
  · cases e
  · rename_i hc
    cases e
    exact ⟨h.ver, by simp only [CON, NON, ACK, RST] at hc ⊢; omega, h.cls, h.detail, h.msgId, h.token, h.sorted⟩
theorem Built.setCode {m m' : Msg} {c d : Nat} (h : Built m) (e : Msg.setCode m c d = .ok m') : Built m' := by
  unfold Msg.setCode at e
  split at e
  · cases e
  · split at e
    · cases e
    · cases e
      exact ⟨h.ver, h.type, by simp only; omega, by simp only; omega, h.msgId, h.token, h.sorted⟩
theorem Built.setMsgId {m m' : Msg} {i : Nat} (h : Built m) (e : Msg.setMsgId m i = .ok m') : Built m' := by
  unfold Msg.setMsgId at e
  split at e
  · cases e
  · rename_i hc
    cases e
    exact ⟨h.ver, h.type, h.cls, h.detail, by simp only; simp at hc; omega, h.token, h.sorted⟩
theorem Built.setToken {m m' : Msg} {b : Bytes} (h : Built m) (e : Msg.setToken m b = .ok m') : Built m' := by
  unfold Msg.setToken at e
  split at e
  · cases e
  · cases e
    exact ⟨h.ver, h.type, h.cls, h.detail, h.msgId, by simp only; omega, h.sorted⟩
theorem Built.addOp {m : Msg} (h : Built m) (n : Nat) (v : Bytes) : Built (Msg.addOp m n v) :=
  ⟨h.ver, h.type, h.cls, h.detail, h.msgId, h.token, by
    simp only [Msg.addOp, opListAdd_eq]; exact ins_sorted _ _ h.sorted⟩
theorem Built.setPayload {m : Msg} (h : Built m) (b : Bytes) : Built (Msg.setPayload m b) :=
  ⟨h.ver, h.type, h.cls, h.detail, h.msgId, h.token, h.sorted⟩

theorem Built.copy {m : Msg} (h : Built m) : Msg.copy Msg.create m = .ok m :=
  C14_copy_equal m h.type h.cls h.detail h.msgId h.token h.sorted

theorem Built.header {m : Msg} (h : Built m) :
    header (enc m) = some ⟨m.type, m.codeClass, m.codeDetail, m.msgId, m.token⟩ :=
  header_enc h.type h.cls h.detail h.msgId h.token

theorem Built.emptyMsg {type id : Nat} (h1 : type < 4) (h2 : id < 65536) : Built (emptyMsg type id) := by
  constructor <;> simp [Server.emptyMsg, Msg.create, destroyed, Sorted, h1, h2]

/-! ## Sending -/

theorem format_take {m : Msg} {buf b' : Bytes} {len n : Nat} (h : format m buf len = .ok (b', n)) :
    Shape m ∧ b'.take n = enc m := by
  obtain ⟨h1, rfl, h3⟩ := format_ok h
  refine ⟨h1, ?_⟩
  obtain ⟨h4, rfl⟩ := wrs_eq_ok.1 h3
  simp

/-- The message fits into the server's buffer. -/
def Sendable (m : Msg) : Prop := ∃ x, format m (List.replicate BUF_LEN 0) BUF_LEN = .ok x

theorem Sendable.shape {m : Msg} (h : Sendable m) : Shape m := by
  obtain ⟨⟨b, n⟩, h⟩ := h
  exact (format_take h).1

theorem send_cases {now : Nat} {e : Option Err} {t t' : Trans} {m : Msg} {o : List Obs} {r : Option Err}
    (h : send now e t m = .ok (t', o, r)) :
    (r = none ∧ e = none ∧ t' = { t with lastUse := now } ∧ o = [.sent t.addr (enc m)] ∧ Sendable m) ∨
    (∃ x, r = some x ∧ t' = t ∧ o = []) := by
  unfold send at h
  split at h
  · cases h
  · cases h; exact Or.inr ⟨_, rfl, rfl, rfl⟩
  · rename_i buf n hf
    obtain ⟨h1, h2⟩ := format_take hf
    split at h
    · cases h; exact Or.inr ⟨_, rfl, rfl, rfl⟩
    · cases h
      exact Or.inl ⟨rfl, rfl, rfl, by rw [h2], _, hf⟩

theorem format_empty {type id : Nat} (ht : type ≠ NON) :
    ∃ b, format (emptyMsg type id) (List.replicate BUF_LEN 0) BUF_LEN = .ok (b, 4) := by
  have hs : Shape (emptyMsg type id) := by simp [emptyMsg, Shape, create, destroyed, ht]
  have ht : (emptyMsg type id).token = [] := rfl
  have ho : (emptyMsg type id).ops = [] := rfl
  have hp : (emptyMsg type id).payload = [] := rfl
  rw [format_split (by rw [List.length_replicate]; decide) (by decide) hs, ht, ho, List.append_nil, List.length_nil,
    if_neg (by decide), wrs_ok (by rw [List.length_replicate, encHdr_length]; decide), Out.bind_ok]
  rw [show ∀ b n, formatOps [] 0 b (4 + 0) n = .ok (b, 0) from fun _ _ => rfl, Out.bind_ok]
  simp only [formatPayload, hp, if_true, List.length_nil]
  exact ⟨_, rfl⟩

/-- An Empty message can always be formatted. -/
theorem send_empty {now : Nat} {e : Option Err} {t t' : Trans} {type id : Nat} {o : List Obs} {r : Option Err}
    (ht : type ≠ NON) (h : send now e t (emptyMsg type id) = .ok (t', o, r)) :
    r = e ∧ ((e = none ∧ t' = { t with lastUse := now } ∧ o = [.sent t.addr (enc (emptyMsg type id))]) ∨
      (e ≠ none ∧ t' = t ∧ o = [])) := by
  obtain ⟨b, hb⟩ := format_empty (id := id) ht
  obtain ⟨-, h2⟩ := format_take hb
  unfold send at h
  rw [hb] at h
  simp only at h
  rw [h2] at h
  cases e with
  | none => cases h; exact ⟨rfl, Or.inl ⟨rfl, rfl, rfl⟩⟩
  | some e => cases h; exact ⟨rfl, Or.inr ⟨by simp, rfl, rfl⟩⟩

theorem send_empty_ne {now : Nat} {e : Option Err} {t : Trans} {type id : Nat} (ht : type ≠ NON) :
    ∃ x, send now e t (emptyMsg type id) = .ok x := by
  obtain ⟨b, hb⟩ := format_empty (id := id) ht
  unfold send
  rw [hb]
  cases e with
  | none => exact ⟨_, rfl⟩
  | some e => exact ⟨_, rfl⟩

end FreeCoAP.Server
