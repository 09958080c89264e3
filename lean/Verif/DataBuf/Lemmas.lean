import Verif.DataBuf.Spec

/-!
# Lemmas on the data buffer
-/

namespace FreeCoAP.DataBuf

/-- The state of a data buffer with maximum `max`. -/
structure Inv (max : Nat) (b : Buf) : Prop where
  maxSize : b.maxSize = max
  data : b.data.length = b.size + 1
  count : b.count ≤ b.size
  size : b.size ≤ max
  rest : (b.data.drop b.count).take (b.size - b.count) = List.replicate (b.size - b.count) 0

theorem subMod {W a c : Nat} (ha : a < W) (hc : c ≤ a) : (a + W - c) % W = a - c := by
  rw [show a + W - c = (a - c) + W from by omega, Nat.add_mod_right, Nat.mod_eq_of_lt (by omega)]

theorem space_eq {W max : Nat} {b : Buf} (hW : 2 * max + 1 < W) (h : Inv max b) : space W b = b.size - b.count := by
  have := h.size
  exact subMod (by omega) h.count

theorem content_length {max : Nat} {b : Buf} (h : Inv max b) : (content b).length = b.count := by
  have h1 := h.data; have h2 := h.count
  simp only [content, List.length_take]; omega

theorem create_inv {W size max : Nat} {mem : Bool} {b : Buf} (hW : 2 * max + 1 < W) (h : create W size max mem = .ok b) :
    Inv max b ∧ b.size = size ∧ content b = [] := by
  unfold create at h
  split at h
  · cases h
  · rename_i hs
    split at h
    · cases h
      have e : (size + 1) % W = size + 1 := Nat.mod_eq_of_lt (by omega)
      refine ⟨⟨rfl, by simp [e], by simp, by simpa using hs, ?_⟩, rfl, by simp [content]⟩
      simp only [e, List.drop_zero, Nat.sub_zero, List.take_replicate]
      rw [Nat.min_eq_left (by omega)]
    · cases h

/-- What `put` does. -/
theorem put_ok {W max : Nat} {b : Buf} (bs : Bytes) (hW : 2 * max + 1 < W) (h : Inv max b) :
    ∃ b', put W b bs = .ok (min bs.length (b.size - b.count), b') ∧ Inv max b' ∧ b'.size = b.size ∧
      content b' = content b ++ bs.take (min bs.length (b.size - b.count)) := by
  obtain ⟨h1, h2, h3, h4, h5⟩ := h
  have hsp : space W b = b.size - b.count := subMod (by omega) h3
  unfold put copyTo
  rw [hsp, if_pos (by simp only [List.length_take]; omega), Out.bind_ok]
  have hn : (if bs.length > b.size - b.count then b.size - b.count else bs.length) = min bs.length (b.size - b.count) := by
    split <;> omega
  have hl : (bs.take (b.size - b.count)).length = min bs.length (b.size - b.count) := by
    simp only [List.length_take]; omega
  have ht : bs.take (b.size - b.count) = bs.take (min bs.length (b.size - b.count)) := by
    by_cases hc : bs.length ≤ b.size - b.count
    · rw [Nat.min_eq_left hc, List.take_of_length_le hc, List.take_of_length_le (Nat.le_refl _)]
    · rw [Nat.min_eq_right (by omega)]
  have ea : ∀ d : Bytes, (pure (add W { b with data := d } bs.length) : Out (Nat × Buf)) =
      .ok (min bs.length (b.size - b.count), { b with count := b.count + min bs.length (b.size - b.count), data := d }) := by
    intro d
    simp only [add, space, subMod (show b.size < W by omega) h3, hn, Out.pure_eq]
    rw [Nat.mod_eq_of_lt (by omega)]
  rw [ea]
  refine ⟨_, rfl, ?_⟩
  · rw [hl]
    rw [ht]
    generalize hk : min bs.length (b.size - b.count) = k
    have hk1 : k ≤ b.size - b.count := by omega
    have hk2 : k ≤ bs.length := by omega
    have el : (bs.take k).length = k := by simp only [List.length_take]; omega
    have e0 : (b.data.take b.count).length = b.count := by simp only [List.length_take]; omega
    refine ⟨⟨h1, ?_, ?_, h4, ?_⟩, rfl, ?_⟩
    · simp only [List.length_append, e0, el, List.length_drop]; omega
    · show b.count + k ≤ b.size; omega
    · show List.take (b.size - (b.count + k)) (List.drop (b.count + k) _) = _
      rw [List.drop_append, List.length_append, e0, el, Nat.sub_self, List.drop_zero,
        List.drop_of_length_le (by rw [List.length_append, e0, el]; omega), List.nil_append]
      have := congrArg (fun l => l.drop k) h5
      simp only [List.drop_take, List.drop_drop, List.drop_replicate] at this
      rw [show b.size - (b.count + k) = b.size - b.count - k from by omega]
      exact this
    · simp only [content]
      rw [List.take_append_of_le_length (by rw [List.length_append, e0, el]; omega)]
      rw [List.take_of_length_le (by rw [List.length_append, e0, el]; omega)]

/-- What `expand` does. -/
theorem expand_ok {W max : Nat} {b : Buf} (fresh : Nat → Option Bytes)
    (hf : ∀ n block, fresh n = some block → block.length = n) (hW : 2 * max + 1 < W) (h : Inv max b) :
    if 2 * b.size > max then expand W b fresh = .err .EINVAL
    else if fresh (2 * b.size + 1) = none then expand W b fresh = .err .ENOMEM
    else ∃ b', expand W b fresh = .ok b' ∧ Inv max b' ∧ b'.size = 2 * b.size ∧ content b' = content b := by
  obtain ⟨h1, h2, h3, h4, h5⟩ := h
  have e1 : (2 * b.size) % W = 2 * b.size := Nat.mod_eq_of_lt (by omega)
  unfold expand
  simp only [e1, h1]
  by_cases hm : 2 * b.size > max
  · simp only [if_pos hm]
  simp only [if_neg hm]
  rw [Nat.mod_eq_of_lt (show 2 * b.size + 1 < W by omega)]
  cases hfr : fresh (2 * b.size + 1) with
  | none => simp
  | some block =>
    have hb := hf _ _ hfr
    simp only [reduceCtorEq, if_false]
    have eu : (b.data.take b.count).length = b.count := by simp only [List.length_take]; omega
    have es : slice b.data 0 b.count = .ok (b.data.take b.count) := by
      unfold slice; rw [if_pos (by omega)]; simp
    have ec : copyTo block 0 (b.data.take b.count) = .ok (b.data.take b.count ++ block.drop b.count) := by
      unfold copyTo; rw [if_pos (by omega)]; simp [eu]
    have ez : zero (b.data.take b.count ++ block.drop b.count) b.count (2 * b.size - b.count) =
        .ok (b.data.take b.count ++ List.replicate (2 * b.size - b.count) 0 ++ block.drop (2 * b.size)) := by
      unfold zero
      rw [if_pos (by rw [List.length_append, eu, List.length_drop]; omega)]
      rw [List.take_append_of_le_length (by omega), List.take_of_length_le (by omega)]
      rw [List.drop_append, eu, List.drop_drop, List.drop_of_length_le (by omega), List.nil_append]
      rw [show b.count + (b.count + (2 * b.size - b.count) - b.count) = 2 * b.size from by omega]
    rw [es, Out.bind_ok, ec, Out.bind_ok, subMod (by omega) (by omega), ez, Out.bind_ok]
    refine ⟨_, rfl, ⟨rfl, ?_, ?_, ?_, ?_⟩, rfl, ?_⟩
    · simp only [List.length_append, eu, List.length_replicate, List.length_drop]; omega
    · show b.count ≤ 2 * b.size; omega
    · show 2 * b.size ≤ max; omega
    · show List.take (2 * b.size - b.count) (List.drop b.count _) = _
      rw [List.append_assoc, List.drop_append, eu, List.drop_of_length_le (by omega), Nat.sub_self, List.nil_append,
        List.drop_zero, List.take_append_of_le_length (by simp), List.take_of_length_le (by simp)]
    · simp only [content]
      rw [List.append_assoc, List.take_append_of_le_length (by omega), List.take_of_length_le (by omega)]

/-- What `consume` does. -/
theorem consume_ok {W max : Nat} {b : Buf} (num : Nat) (hW : 2 * max + 1 < W) (h : Inv max b) :
    ∃ b', consume W b num = .ok (min num b.count, b') ∧ Inv max b' ∧ b'.size = b.size ∧
      content b' = (content b).drop num ∧ slice b.data 0 (min num b.count) = .ok ((content b).take num) := by
  obtain ⟨h1, h2, h3, h4, h5⟩ := h
  have hn : (if num > b.count then b.count else num) = min num b.count := by split <;> omega
  unfold consume
  simp only [hn]
  generalize hk : min num b.count = k
  have hk1 : k ≤ b.count := by omega
  have e1 : (b.size + W - k) % W = b.size - k := subMod (by omega) (by omega)
  have es : slice b.data k (b.size - k) = .ok ((b.data.drop k).take (b.size - k)) := by
    unfold slice; rw [if_pos (by omega)]
  have el : ((b.data.drop k).take (b.size - k)).length = b.size - k := by
    simp only [List.length_take, List.length_drop]; omega
  have ec : copyTo b.data 0 ((b.data.drop k).take (b.size - k)) =
      .ok ((b.data.drop k).take (b.size - k) ++ b.data.drop (b.size - k)) := by
    unfold copyTo; rw [if_pos (by omega)]; simp [el]
  have ez : zero ((b.data.drop k).take (b.size - k) ++ b.data.drop (b.size - k)) (b.size - k) k =
      .ok ((b.data.drop k).take (b.size - k) ++ List.replicate k 0 ++ b.data.drop b.size) := by
    generalize (b.data.drop k).take (b.size - k) = A at el
    unfold zero
    rw [if_pos (by rw [List.length_append, el, List.length_drop]; omega)]
    rw [List.take_append_of_le_length (by omega), List.take_of_length_le (by omega)]
    rw [List.drop_append, el, List.drop_drop, List.drop_of_length_le (by omega), List.nil_append]
    rw [show b.size - k + (b.size - k + k - (b.size - k)) = b.size from by omega]
  rw [e1, es, Out.bind_ok, ec, Out.bind_ok, ez, Out.bind_ok, subMod (by omega) hk1]
  have hdd : (content b).drop num = (content b).drop k := by
    by_cases hc : num ≤ b.count
    · rw [show k = num from by omega]
    · have : (content b).length = b.count := by simp only [content, List.length_take]; omega
      rw [List.drop_of_length_le (by omega), List.drop_of_length_le (by omega)]
  have htt : (content b).take num = (content b).take k := by
    by_cases hc : num ≤ b.count
    · rw [show k = num from by omega]
    · have : (content b).length = b.count := by simp only [content, List.length_take]; omega
      rw [List.take_of_length_le (by omega), List.take_of_length_le (by omega)]
  refine ⟨_, rfl, ⟨h1, ?_, ?_, h4, ?_⟩, rfl, ?_, ?_⟩
  · simp only [List.length_append, el, List.length_replicate, List.length_drop]; omega
  · show b.count - k ≤ b.size; omega
  · show List.take (b.size - (b.count - k)) (List.drop (b.count - k) _) = _
    have e2 : List.drop (b.count - k) (List.take (b.size - k) (List.drop k b.data)) = List.replicate (b.size - b.count) 0 := by
      rw [List.drop_take, List.drop_drop, show k + (b.count - k) = b.count from by omega,
        show b.size - k - (b.count - k) = b.size - b.count from by omega]
      exact h5
    rw [List.append_assoc, List.drop_append, el, e2, show b.count - k - (b.size - k) = 0 from by omega, List.drop_zero,
      ← List.append_assoc, List.replicate_append_replicate, List.take_append_of_le_length (by simp; omega),
      List.take_of_length_le (by simp; omega)]
    dsimp only
    congr 1; omega
  · rw [hdd]
    simp only [content]
    rw [List.append_assoc, List.take_append_of_le_length (by omega), List.take_take, List.drop_take,
      Nat.min_eq_left (by omega)]
  · rw [htt]
    unfold slice
    rw [if_pos (by omega)]
    simp only [content, List.drop_zero, List.take_take, Nat.min_eq_left hk1]

/-- The buffer is the ideal queue. -/
theorem run_queue {W max : Nat} (hW : 2 * max + 1 < W) : ∀ (cs : List Call) (b : Buf), Inv max b → Allocates cs →
    ∃ os b', run W b cs = .ok (os, b') ∧ Inv max b' ∧ queue W max b.size (content b) cs = (os, b'.size, content b')
  | [], b, h, _ => ⟨[], b, rfl, h, rfl⟩
  | .put bs :: cs, b, h, ha => by
    obtain ⟨b1, e1, i1, s1, c1⟩ := put_ok bs hW h
    obtain ⟨os, b2, e2, i2, q2⟩ := run_queue hW cs b1 i1 (fun c hc => ha c (List.mem_cons_of_mem _ hc))
    refine ⟨.put (min bs.length (b.size - b.count)) :: os, b2, ?_, i2, ?_⟩
    · simp only [run, step, e1, Out.bind_ok, Out.pure_eq, e2]
    · rw [s1, c1] at q2
      simp only [queue, content_length h, q2]
  | .expand fresh :: cs, b, h, ha => by
    have he := expand_ok fresh (ha _ List.mem_cons_self fresh rfl) hW h
    have ha' : Allocates cs := fun c hc => ha c (List.mem_cons_of_mem _ hc)
    by_cases h1 : 2 * b.size > max
    · rw [if_pos h1] at he
      obtain ⟨os, b2, e2, i2, q2⟩ := run_queue hW cs b h ha'
      refine ⟨.failed .EINVAL :: os, b2, ?_, i2, ?_⟩
      · simp only [run, step, he, Out.bind_ok, Out.pure_eq, e2]
      · simp only [queue, if_pos h1, q2]
    · rw [if_neg h1] at he
      by_cases h2 : fresh (2 * b.size + 1) = none
      · rw [if_pos h2] at he
        obtain ⟨os, b2, e2, i2, q2⟩ := run_queue hW cs b h ha'
        refine ⟨.failed .ENOMEM :: os, b2, ?_, i2, ?_⟩
        · simp only [run, step, he, Out.bind_ok, Out.pure_eq, e2]
        · simp only [queue, if_neg h1, if_pos h2, q2]
      · rw [if_neg h2] at he
        obtain ⟨b1, e1, i1, s1, c1⟩ := he
        obtain ⟨os, b2, e2, i2, q2⟩ := run_queue hW cs b1 i1 ha'
        refine ⟨.expanded :: os, b2, ?_, i2, ?_⟩
        · simp only [run, step, e1, Out.bind_ok, Out.pure_eq, e2]
        · rw [s1, c1] at q2
          simp only [queue, if_neg h1, if_neg h2, q2]
  | .consume n :: cs, b, h, ha => by
    obtain ⟨b1, e1, i1, s1, c1, t1⟩ := consume_ok n hW h
    obtain ⟨os, b2, e2, i2, q2⟩ := run_queue hW cs b1 i1 (fun c hc => ha c (List.mem_cons_of_mem _ hc))
    refine ⟨.consume ((content b).take n) :: os, b2, ?_, i2, ?_⟩
    · simp only [run, step, e1, Out.bind_ok, t1, Out.pure_eq, e2]
    · rw [s1, c1] at q2
      simp only [queue, q2]

/-- An ideal queue keeps order and loses nothing. -/
theorem queue_order (W max : Nat) : ∀ (cs : List Call) (size : Nat) (q : Bytes), q.length ≤ size →
    q ++ taken cs (queue W max size q cs).1 = given (queue W max size q cs).1 ++ (queue W max size q cs).2.2
  | [], size, q, _ => by simp [queue, taken, given]
  | .put bs :: cs, size, q, h => by
    have ih := queue_order W max cs size (q ++ bs.take (min bs.length (size - q.length)))
      (by simp only [List.length_append, List.length_take]; omega)
    simp only [queue, taken, given, ← List.append_assoc, ih]
  | .expand fresh :: cs, size, q, h => by
    simp only [queue]
    split
    · simpa only [taken, given] using queue_order W max cs size q h
    · split
      · simpa only [taken, given] using queue_order W max cs size q h
      · simpa only [taken, given] using queue_order W max cs (2 * size) q (by omega)
  | .consume n :: cs, size, q, h => by
    have ih := queue_order W max cs size (q.drop n) (by simp only [List.length_drop]; omega)
    simp only [queue, taken, given, List.append_assoc, ← ih]
    rw [← List.append_assoc, List.take_append_drop]

end FreeCoAP.DataBuf
