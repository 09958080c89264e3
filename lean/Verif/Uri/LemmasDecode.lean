import Verif.Uri.Spec

/-! # Decoding needs no more space than there is -/

namespace FreeCoAP.Uri

/-- The decoded text, without the block that it is written to; `none` if it cannot be decoded. -/
def decodeStr (sx : Bool) : Bytes → Option Bytes
  | [] => some []
  | c :: s =>
    if c = 0x25 then
      match s with
      | a :: b :: rest =>
        match twoHexToInt a b with
        | none => none
        | some v => (decodeStr sx rest).map (fun t => UInt8.ofNat v :: t)
      | _ => none
    else if sx = true ∧ c = 0xFF then none
    else (decodeStr sx s).map (fun t => c :: t)

/-- A component: the C string in the buffer after decoding. -/
def decode (sx : Bool) (s : Bytes) : Out Bytes :=
  match decodeStr sx s with
  | none => .err .EBADMSG
  | some t => .ok (cstr t)

theorem decodeStr_length {sx : Bool} : ∀ (k : Nat) {s t : Bytes}, s.length ≤ k → decodeStr sx s = some t → t.length ≤ s.length
  | _, [], t, _, h => by rw [decodeStr.eq_def] at h; cases h; exact Nat.le_refl _
  | 0, c :: s, t, hk, h => by cases hk
  | k + 1, c :: s, t, hk, h => by
    rw [decodeStr.eq_def] at h
    dsimp only at h
    split at h
    · split at h
      · rename_i a b rest
        split at h
        · cases h
        · cases hd : decodeStr sx rest with
          | none => rw [hd] at h; cases h
          | some u =>
            rw [hd] at h
            cases h
            have := decodeStr_length k (by simp only [List.length_cons] at hk; omega) hd
            simp only [List.length_cons]
            omega
      · cases h
    split at h
    · cases h
    · cases hd : decodeStr sx s with
      | none => rw [hd] at h; cases h
      | some u =>
        rw [hd] at h
        cases h
        have := decodeStr_length k (by simp only [List.length_cons] at hk; omega) hd
        simp only [List.length_cons]
        omega

/-- What has been written, and the rest of the block. -/
theorem put_ok {off L n m : Nat} {pre : Bytes} {c : Byte} (h1 : pre.length = off + n) (h2 : n + 1 < L) :
    put off L (pre ++ zeros (m + 1)) n c = .ok ((pre ++ [c]) ++ zeros m) := by
  unfold put poke
  rw [if_pos h2, if_pos (by rw [List.length_append, zeros, List.length_replicate]; omega), ← h1]
  have : (pre ++ zeros (m + 1)).set pre.length c = pre ++ [c] ++ zeros m := by
    rw [List.set_append_right _ _ (Nat.le_refl _), Nat.sub_self]
    show pre ++ (0 :: zeros m).set 0 c = _
    rw [List.set_cons_zero, List.append_assoc]
    rfl
  rw [this]

/-- The result of decoding into a block that is large enough. -/
def written (n : Nat) (pre : Bytes) (k : Nat) : Option Bytes → Option (Bytes × Nat)
  | none => none
  | some t => some (pre ++ t ++ zeros (k - t.length), n + t.length)

theorem decodeInto_eq {sx : Bool} {off L : Nat} : ∀ (f : Nat) {s pre : Bytes} {n k : Nat}, s.length ≤ f → pre.length = off + n →
    n + s.length < L → s.length < k → decodeInto sx off L s (pre ++ zeros k) n = .ok (written n pre k (decodeStr sx s))
  | _, [], pre, n, k, _, _, _, _ => by
    rw [decodeInto.eq_def, decodeStr.eq_def]
    show _ = Out.ok (some (pre ++ [] ++ zeros k, n))
    rw [List.append_nil]
  | 0, c :: s, _, _, _, hf, _, _, _ => by cases hf
  | f + 1, c :: s, pre, n, 0, _, _, _, hk => by cases hk
  | f + 1, c :: s, pre, n, k + 1, hf, h1, h2, hk => by
    have tail : ∀ (v : Byte) (rest : Bytes), rest.length ≤ s.length →
        (put off L (pre ++ zeros (k + 1)) n v >>= fun dest => decodeInto sx off L rest dest (n + 1)) =
          .ok (written n pre (k + 1) ((decodeStr sx rest).map (fun t => v :: t))) := by
      intro v rest hr
      simp only [List.length_cons] at hf h2 hk
      rw [put_ok h1 (by omega), Out.bind_ok,
        decodeInto_eq f (pre := pre ++ [v]) (by omega) (by rw [List.length_append, h1, List.length_singleton]; omega) (by omega) (by omega)]
      cases decodeStr sx rest with
      | none => rfl
      | some t =>
        show Out.ok (some (pre ++ [v] ++ t ++ zeros (k - t.length), n + 1 + t.length)) =
          Out.ok (some (pre ++ (v :: t) ++ zeros (k + 1 - (t.length + 1)), n + (t.length + 1)))
        rw [show k + 1 - (t.length + 1) = k - t.length by omega, show n + 1 + t.length = n + (t.length + 1) by omega,
          List.append_assoc pre [v] t]
        rfl
    rw [decodeInto.eq_def, decodeStr.eq_def]
    dsimp only
    split
    · match s, tail with
      | [], _ => rfl
      | [_], _ => rfl
      | a :: b :: rest, tail =>
        dsimp only
        cases twoHexToInt a b with
        | none => rfl
        | some v => exact tail _ rest (by simp only [List.length_cons]; omega)
    split
    · rfl
    · exact tail c s (Nat.le_refl _)

theorem cstr_zeros {t : Bytes} {k : Nat} : cstr (t ++ zeros (k + 1)) = cstr t := by
  unfold cstr
  induction t with
  | nil => rfl
  | cons c t ih =>
    rw [List.cons_append, List.takeWhile_cons, List.takeWhile_cons]
    split
    · rw [ih]
    · rfl

/-- The C string in the block. -/
theorem decoded_eq {sx : Bool} {s pre : Bytes} {n k L : Nat} (hL : n + s.length < L) (hk : s.length < k) :
    decoded L (written n pre k (decodeStr sx s)) = match decodeStr sx s with
      | none => .err .EBADMSG
      | some t => .ok (cstr (pre ++ t)) := by
  cases h : decodeStr sx s with
  | none => rfl
  | some t =>
    have hl := decodeStr_length _ (Nat.le_refl _) h
    show (if n + t.length ≥ L then _ else _) = _
    rw [if_neg (by omega)]
    obtain ⟨m, hm⟩ : ∃ m, k - t.length = m + 1 := ⟨k - t.length - 1, by omega⟩
    rw [hm, if_pos (by simp [zeros, List.replicate_succ]), cstr_zeros]

theorem component_eq (sx : Bool) (mem : Site → Bool) (site : Site) (s : Bytes) :
    component sx mem site s = if mem site then decode sx s else .err .ENOMEM := by
  unfold component
  rw [show zeros (s.length + 1) = [] ++ zeros (s.length + 1) from rfl,
    decodeInto_eq s.length (Nat.le_refl _) rfl (by omega) (Nat.lt_succ_self _), Out.bind_ok, decoded_eq (by omega) (Nat.lt_succ_self _)]
  rfl

theorem slashed_eq (sx : Bool) (mem : Site → Bool) (s : Bytes) :
    slashed sx mem s = component sx mem .path s >>= fun t => .ok (0x2F :: t) := by
  rw [component_eq]
  unfold slashed
  rw [show poke (zeros (s.length + 1 + 1)) 0 0x2F = .ok ([0x2F] ++ zeros (s.length + 1)) from by
      unfold poke
      rw [if_pos (by rw [zeros, List.length_replicate]; omega)]
      rfl,
    Out.bind_ok, decodeInto_eq s.length (Nat.le_refl _) rfl (by omega) (Nat.lt_succ_self _), Out.bind_ok, decoded_eq (by omega) (Nat.lt_succ_self _)]
  unfold decode
  split
  · cases decodeStr sx s <;> rfl
  · rfl

theorem set_eq (sx : Bool) (mem : Site → Bool) (site : Site) (s : Bytes) : set sx mem site s =
    if site = .path ∧ s.head? ≠ some 0x2F then
      if mem site then
        match decodeStr sx s with
        | none => .err .EBADMSG
        | some t => .ok (cstr (0x2F :: t))
      else .err .ENOMEM
    else component sx mem site s := by
  unfold set
  rw [show zeros (s.length + 2) = [] ++ zeros (s.length + 2) from rfl,
    decodeInto_eq (s := str "/") 1 (by decide) rfl (by show 0 + 1 < _; omega) (by show 1 < _; omega), Out.bind_ok]
  have e : decodeStr sx (str "/") = some [0x2F] := by cases sx <;> decide
  rw [e]
  show (if _ then if _ then decodeInto sx 0 (s.length + 2) s ([0x2F] ++ zeros (s.length + 2 - 1)) (0 + 1) >>= _ else _ else _) = _
  rw [decodeInto_eq s.length (Nat.le_refl _) rfl (by omega) (by omega), Out.bind_ok, decoded_eq (by omega) (by omega)]
  rfl

end FreeCoAP.Uri
