import Verif.Proxy.Spec
import Verif.DataBuf.Lemmas
import Verif.Http.LemmasGen

/-!
# Lemmas about sending
-/

namespace FreeCoAP.Proxy

open FreeCoAP.DataBuf (Buf space put consume expand slice)
open FreeCoAP.Http (HMsg)

/-- The state of the buffer for responses. -/
structure Empty (b : Buf) : Prop where
  count : b.count = 0
  max : b.maxSize = MAX
  data : b.data.length = b.size + 1
  size : IsSize b.size

theorem IsSize.bounds {n : Nat} (h : IsSize n) : 4096 ≤ n ∧ n ≤ 32768 ∧ (n < 32768 → IsSize (2 * n)) := by
  simp only [IsSize, List.mem_cons, List.not_mem_nil, or_false] at h ⊢
  omega

theorem Empty.space {W : Nat} {b : Buf} (hW : 2 * MAX + 1 < W) (h : Empty b) : DataBuf.space W b = b.size := by
  have := h.size.bounds
  unfold MAX at hW
  unfold DataBuf.space
  rw [h.count, Nat.sub_zero, Nat.add_mod_right, Nat.mod_eq_of_lt (by omega)]

/-- Expanding the empty buffer. -/
theorem Empty.expand {W : Nat} {b : Buf} (hW : 2 * MAX + 1 < W) (h : Empty b) {fresh : Nat → Option Bytes} (hf : Sized fresh) :
    (∃ b', DataBuf.expand W b fresh = .ok b' ∧ Empty b' ∧ b'.size = 2 * b.size) ∨
    (DataBuf.expand W b fresh = .err .EINVAL ∧ b.size = MAX) ∨
    (DataBuf.expand W b fresh = .err .ENOMEM ∧ ∃ n, fresh n = none) := by
  have hb := h.size.bounds
  have hWb : 65537 < W := hW
  have e1 : (2 * b.size) % W = 2 * b.size := Nat.mod_eq_of_lt (by omega)
  unfold DataBuf.expand
  dsimp only
  rw [e1, h.max]
  by_cases hm : 2 * b.size > MAX
  · rw [if_pos hm]
    refine .inr (.inl ⟨rfl, ?_⟩)
    have hs := h.size
    simp only [IsSize, List.mem_cons, List.not_mem_nil, or_false] at hs
    unfold MAX at hm ⊢
    omega
  · rw [if_neg hm]
    unfold MAX at hm
    have e2 : (2 * b.size + 1) % W = 2 * b.size + 1 := Nat.mod_eq_of_lt (by omega)
    rw [e2]
    cases hfr : fresh (2 * b.size + 1) with
    | none => exact .inr (.inr ⟨rfl, _, hfr⟩)
    | some block =>
      have hl := hf _ _ hfr
      left
      have s1 : slice b.data 0 b.count = .ok [] := by
        unfold slice
        rw [h.count, if_pos (by omega), List.take_zero]
      have s2 : DataBuf.copyTo block 0 [] = .ok block := by
        unfold DataBuf.copyTo
        rw [if_pos (by simp)]
        simp
      have e3 : (2 * b.size + W - 0) % W = 2 * b.size := by rw [Nat.sub_zero, Nat.add_mod_right, e1]
      have s3 : DataBuf.zero block b.count ((2 * b.size + W - b.count) % W) =
          .ok (block.take 0 ++ List.replicate (2 * b.size) 0 ++ block.drop (0 + 2 * b.size)) := by
        rw [h.count, e3]
        unfold DataBuf.zero
        rw [if_pos (by omega)]
      dsimp only
      rw [s1, Out.bind_ok, s2, Out.bind_ok, s3, Out.bind_ok]
      refine ⟨_, rfl, ⟨h.count, rfl, ?_, hb.2.2 (by omega)⟩, rfl⟩
      simp only [List.take_zero, List.nil_append, List.length_append, List.length_replicate, List.length_drop]
      omega

/-- What is in the buffer after generating. -/
def stored (size : Nat) (t : Bytes) : Bytes := if t.length = size then t.dropLast ++ [0] else t

theorem stored_length {size : Nat} {t : Bytes} (h : 0 < size) : (stored size t).length = t.length := by
  unfold stored
  split
  · simp only [List.length_append, List.length_dropLast, List.length_cons, List.length_nil]
    omega
  · rfl

theorem shape_stored {size : Nat} {t tail : Bytes} (h0 : 0 < size) (h : t.length ≤ size) :
    (Http.shape size t tail).take t.length = stored size t := by
  unfold Http.shape stored
  by_cases e : t.length = size
  · rw [if_pos e, List.dropLast_eq_take, e]
    have : min size (size - 1) = size - 1 := by omega
    rw [this]
    have e2 : size - (size - 1) = 1 := by omega
    rw [e2, List.take_append_of_le_length (by simp; omega)]
    rw [List.take_of_length_le (by simp; omega)]
    rfl
  · rw [if_neg e, List.take_of_length_le (by omega : t.length ≤ size - 1), List.append_assoc, List.take_append_of_le_length (by omega),
      List.take_length]

/-- The loop that generates the text. -/
theorem fill_ok {W : Nat} (hW : 2 * MAX + 1 < W) (m : HMsg) {fresh : Nat → Nat → Option Bytes} (hf : ∀ i, Sized (fresh i)) :
    ∀ (fuel : Nat) (b : Buf), Empty b → MAX < b.size * 2 ^ fuel →
      (∃ b', fill W m fresh fuel b = .ok (.ready (Http.text m).length b') ∧ Empty b' ∧ (Http.text m).length ≤ b'.size ∧
        b.size ≤ b'.size ∧ (b'.size = b.size ∨ b'.size < 2 * (Http.text m).length) ∧
        b'.data.take (Http.text m).length = stored b'.size (Http.text m)) ∨
      (∃ b' e, fill W m fresh fuel b = .ok (.failed e b') ∧ Empty b' ∧ b.size ≤ b'.size ∧
        (e = .EINVAL ∧ MAX < (Http.text m).length ∨ e = .ENOMEM ∧ ∃ i n, fresh i n = none))
  | 0, b, h, hs => by
    have := h.size.bounds
    unfold MAX at hs
    omega
  | fuel + 1, b, h, hs => by
    have hb := h.size.bounds
    unfold fill
    rw [h.space hW]
    have hd := h.data
    rw [Http.generate_shape m (len := b.size) (by omega) (by omega), Out.bind_ok]
    dsimp only
    have hsl : (Http.shape b.size (Http.text m) (b.data.drop b.size)).length = b.size + 1 := by
      rw [Http.shape_length, List.length_drop]
      omega
    have hE : Empty { b with data := Http.shape b.size (Http.text m) (b.data.drop b.size) } := ⟨h.count, h.max, hsl, h.size⟩
    by_cases hle : (Http.text m).length ≤ b.size
    · rw [if_pos hle]
      exact .inl ⟨_, rfl, hE, hle, Nat.le_refl _, .inl rfl, shape_stored (by omega) hle⟩
    · rw [if_neg hle]
      rcases hE.expand hW (hf fuel) with ⟨b1, e1, h1, hs1⟩ | ⟨e1, hm⟩ | ⟨e1, n, hn⟩
      · rw [e1]
        dsimp only at hs1 ⊢
        have hfu : MAX < b1.size * 2 ^ fuel := by
          rw [hs1, Nat.mul_comm 2, Nat.mul_assoc, ← Nat.pow_succ']
          exact hs
        rcases fill_ok hW m hf fuel b1 h1 hfu with ⟨b', e, hb', hl, hs', hg, ht⟩ | ⟨b', e, he, hb', hs', hx⟩
        · refine .inl ⟨b', e, hb', hl, by omega, .inr ?_, ht⟩
          rcases hg with hg | hg <;> omega
        · exact .inr ⟨b', e, he, hb', by omega, hx⟩
      · rw [e1]
        dsimp only at hm ⊢
        exact .inr ⟨_, _, rfl, hE, Nat.le_refl _, .inl ⟨rfl, by omega⟩⟩
      · rw [e1]
        exact .inr ⟨_, _, rfl, hE, Nat.le_refl _, .inr ⟨rfl, _, n, hn⟩⟩

/-- Writing: what was written is a beginning of the text, all of it if the result is good. -/
theorem writeFull_ok : ∀ (ws : List Write) (done todo : Bytes), (done ++ todo) ≠ [] →
    (∃ rest, done ++ todo = (writeFull ws done todo).1 ++ rest) ∧
    ((writeFull ws done todo).2 = .ok → (writeFull ws done todo).1 = done ++ todo) ∧
    (∀ e, (writeFull ws done todo).2 = .failed e → e = .EIO)
  | ws, done, [], h => by
    rw [List.append_nil] at h
    have e : writeFull ws done [] = (done, .ok) := by
      cases ws <;> simp only [writeFull, if_neg h]
    rw [e]
    exact ⟨⟨[], by simp⟩, fun _ => (by simp), fun _ h => (nomatch h)⟩
  | [], done, c :: todo, h => ⟨⟨c :: todo, rfl⟩, fun h => (nomatch h), fun _ h => (nomatch h)⟩
  | .wrote 0 :: ws, done, c :: todo, h => ⟨⟨c :: todo, rfl⟩, fun h => (nomatch h), fun _ h => (nomatch h)⟩
  | .closed :: ws, done, c :: todo, h => ⟨⟨c :: todo, rfl⟩, fun h => (nomatch h), fun _ h => (nomatch h)⟩
  | .error :: ws, done, c :: todo, h =>
    ⟨⟨c :: todo, rfl⟩, fun h => (nomatch h), fun e h => by
      change Sent.failed .EIO = Sent.failed e at h
      injection h with h; exact h.symm⟩
  | .wrote (k + 1) :: ws, done, c :: todo, h => by
    have e : done ++ (c :: todo).take (k + 1) ++ (c :: todo).drop (k + 1) = done ++ c :: todo := by
      rw [List.append_assoc, List.take_append_drop]
    have := writeFull_ok ws (done ++ (c :: todo).take (k + 1)) ((c :: todo).drop (k + 1)) (by rw [e]; exact h)
    rw [e] at this
    exact this

/-- The socket takes everything in the end. -/
theorem writeFull_live : ∀ (ws : List Write) (done todo : Bytes), (done ++ todo) ≠ [] → (∀ w ∈ ws, ∃ k, w = .wrote (k + 1)) →
    todo.length ≤ ws.length → (writeFull ws done todo).2 = .ok
  | ws, done, [], h, _, _ => by
    rw [List.append_nil] at h
    cases ws <;> simp only [writeFull, if_neg h]
  | [], done, c :: todo, _, _, hl => by simp at hl
  | w :: ws, done, c :: todo, h, hw, hl => by
    obtain ⟨k, rfl⟩ := hw w (List.mem_cons_self ..)
    have e : done ++ (c :: todo).take (k + 1) ++ (c :: todo).drop (k + 1) = done ++ c :: todo := by
      rw [List.append_assoc, List.take_append_drop]
    refine writeFull_live ws _ _ (by rw [e]; exact h) (fun w h => hw w (List.mem_cons_of_mem _ h)) ?_
    simp only [List.length_drop, List.length_cons] at hl ⊢
    omega

theorem text_ne_nil (m : HMsg) : Http.text m ≠ [] := by
  unfold Http.text
  simp [Http.CRLF]

/-- One response. -/
theorem send_ok {W : Nat} (hW : 2 * MAX + 1 < W) (m : HMsg) {fresh : Nat → Nat → Option Bytes} (hf : ∀ i, Sized (fresh i))
    (ws : List Write) {b : Buf} (h : Empty b) :
    (∃ b', send W m fresh ws b = .ok ((writeFull ws [] (stored b'.size (Http.text m))).1,
        (writeFull ws [] (stored b'.size (Http.text m))).2, b') ∧ Empty b' ∧ (Http.text m).length ≤ b'.size ∧
        b.size ≤ b'.size ∧ (b'.size = b.size ∨ b'.size < 2 * (Http.text m).length)) ∨
    (∃ b' e, send W m fresh ws b = .ok ([], .failed e, b') ∧ Empty b' ∧ b.size ≤ b'.size ∧
        (e = .EINVAL ∧ MAX < (Http.text m).length ∨ e = .ENOMEM ∧ ∃ i n, fresh i n = none)) := by
  have hb := h.size.bounds
  have hfu : MAX < b.size * 2 ^ (MAX + 1) := by
    have h1 : MAX + 1 < 2 ^ (MAX + 1) := Nat.lt_two_pow_self
    calc MAX < 1 * 2 ^ (MAX + 1) := by omega
      _ ≤ b.size * 2 ^ (MAX + 1) := Nat.mul_le_mul_right _ (by omega)
  unfold send
  generalize MAX + 1 = fuel at hfu
  rcases fill_ok hW m hf fuel b h hfu with ⟨b', e, hb', hl, hs', hg, ht⟩ | ⟨b', e, he, hb', hs', hx⟩
  · left
    have hd := hb'.data
    refine ⟨b', ?_, hb', hl, hs', hg⟩
    have hs : slice b'.data 0 (Http.text m).length = .ok (stored b'.size (Http.text m)) := by
      unfold slice
      rw [if_pos (by omega), List.drop_zero, ht]
    rw [e, Out.bind_ok]
    dsimp only
    rw [hs, Out.bind_ok]
    rfl
  · right
    refine ⟨b', e, ?_, hb', hs', hx⟩
    rw [he, Out.bind_ok]
    rfl

end FreeCoAP.Proxy
