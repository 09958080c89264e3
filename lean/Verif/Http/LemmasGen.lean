import Verif.Http.LemmasMsg

/-!
# Generation of messages
-/

namespace FreeCoAP.Http

/-- The content of a buffer of which `len` bytes may be used, after the text `t` was written: as much of the text
as leaves room for a NUL, and zeros. -/
def shape (len : Nat) (t tail : Bytes) : Bytes :=
  t.take (len - 1) ++ List.replicate (len - min t.length (len - 1)) 0 ++ tail

theorem shape_length {len : Nat} (t tail : Bytes) : (shape len t tail).length = len + tail.length := by
  unfold shape
  simp only [List.length_append, List.length_take, List.length_replicate]
  omega

theorem shape_poke_text {len : Nat} {t : Bytes} (tail : Bytes) (c : Byte) (h : t.length < len - 1) :
    poke (shape len t tail) t.length c = .ok (shape len (t ++ [c]) tail) := by
  unfold poke
  rw [if_pos (by rw [shape_length]; omega)]
  congr 1
  unfold shape
  rw [List.take_of_length_le (by omega), List.take_of_length_le (by rw [List.length_append]; simp; omega)]
  have e1 : len - min t.length (len - 1) = (len - min (t ++ [c]).length (len - 1)) + 1 := by
    rw [List.length_append, List.length_singleton]
    omega
  rw [e1, List.replicate_succ, List.append_assoc, List.set_append_right _ _ (Nat.le_refl _), Nat.sub_self,
    List.cons_append, List.set_cons_zero]
  simp only [List.append_assoc, List.nil_append, List.cons_append]

/-- The position of the loop. -/
def Place (len i : Nat) (t : Bytes) : Prop :=
  (t.length < len - 1 ∧ i = t.length) ∨ (len - 1 ≤ t.length ∧ len - 1 ≤ i)

theorem shape_full {len : Nat} {t : Bytes} (u tail : Bytes) (h : len - 1 ≤ t.length) :
    shape len (t ++ u) tail = shape len t tail := by
  unfold shape
  rw [List.take_append_of_le_length h, Nat.min_eq_right h, Nat.min_eq_right (by rw [List.length_append]; omega)]

theorem catLoop_shape {len : Nat} (tail : Bytes) (src : Bytes) : (t : Bytes) → (i : Nat) → Place len i t →
    ∃ j, catLoop len (shape len t tail) src i = .ok (shape len (t ++ src) tail, j) ∧ Place len j (t ++ src) := by
  induction src with
  | nil => intro t i h; exact ⟨i, by simp [catLoop], by simpa using h⟩
  | cons c src ih =>
    intro t i h
    have e : t ++ c :: src = t ++ [c] ++ src := by simp
    unfold catLoop
    rcases h with ⟨h1, rfl⟩ | ⟨h1, h2⟩
    · rw [if_pos h1, shape_poke_text tail c h1, Out.bind_ok, e]
      refine ih _ _ ?_
      by_cases h3 : (t ++ [c]).length < len - 1
      · exact .inl ⟨h3, by simp⟩
      · rw [List.length_append, List.length_singleton] at h3
        exact .inr ⟨by rw [List.length_append, List.length_singleton]; omega, by omega⟩
    · rw [if_neg (by omega), e]
      have := ih (t ++ [c]) i (.inr ⟨by rw [List.length_append]; omega, h2⟩)
      rwa [shape_full [c] tail h1] at this

theorem strncat_shape {len : Nat} (h : 0 < len) (t src tail : Bytes) :
    strncat (shape len t tail) src t.length len = .ok (shape len (t ++ src) tail, (t ++ src).length) := by
  unfold strncat
  rw [if_neg (by omega)]
  have hp : Place len t.length t := by
    by_cases h1 : t.length < len - 1
    · exact .inl ⟨h1, rfl⟩
    · exact .inr ⟨by omega, by omega⟩
  obtain ⟨j, e, hj⟩ := catLoop_shape tail src t _ hp
  rw [e, Out.bind_ok]
  dsimp only
  rw [← List.length_append]
  generalize t ++ src = u at hj ⊢
  have : poke (shape len u tail) (if j < len then j else len - 1) 0 = .ok (shape len u tail) := by
    unfold poke
    rw [if_pos (by rw [shape_length]; split <;> omega)]
    congr 1
    have hi : (if j < len then j else len - 1) = min u.length (len - 1) := by
      rcases hj with ⟨h1, rfl⟩ | ⟨h1, h2⟩
      · rw [if_pos (by omega)]; omega
      · split <;> omega
    rw [hi]
    unfold shape
    obtain ⟨k, hk⟩ : ∃ k, len - min u.length (len - 1) = k + 1 := ⟨len - min u.length (len - 1) - 1, by omega⟩
    have hl : (u.take (len - 1)).length = min u.length (len - 1) := by rw [List.length_take]; omega
    rw [hk, ← hl, List.replicate_succ, List.append_assoc, List.set_append_right _ _ (Nat.le_refl _), Nat.sub_self]
    rfl
  rw [this, Out.bind_ok]
  rfl

theorem catAll_shape {len : Nat} (h : 0 < len) (tail : Bytes) (ss : List Bytes) : (t : Bytes) →
    catAll len (shape len t tail) t.length ss = .ok (shape len (t ++ ss.flatten) tail, (t ++ ss.flatten).length) := by
  induction ss with
  | nil => intro t; simp [catAll]
  | cons s ss ih =>
    intro t
    unfold catAll
    rw [strncat_shape h, Out.bind_ok]
    dsimp only
    rw [ih, List.flatten_cons, List.append_assoc]

theorem genBody_shape {len : Nat} (h : 0 < len) (b t tail : Bytes) :
    genBody b (shape len t tail) t.length len = .ok (shape len (t ++ b) tail, (t ++ b).length) := by
  unfold genBody
  dsimp only
  rw [if_neg (by omega : ¬ len = 0)]
  have copy : ∀ u : Bytes, t.length + u.length ≤ len - 1 →
      copyTo (shape len t tail) t.length u = .ok (shape len (t ++ u) tail) := by
    intro u hu
    unfold copyTo
    rw [if_pos (by rw [shape_length]; omega)]
    congr 1
    unfold shape
    rw [List.take_of_length_le (l := t) (by omega), List.take_of_length_le (l := t ++ u) (by rw [List.length_append]; omega)]
    have e1 : len - min t.length (len - 1) = u.length + (len - min (t ++ u).length (len - 1)) := by
      rw [List.length_append]
      omega
    rw [e1, ← List.replicate_append_replicate]
    have e2 : t ++ (List.replicate u.length 0 ++ List.replicate (len - min (t ++ u).length (len - 1)) 0) ++ tail =
        t ++ (List.replicate u.length 0 ++ (List.replicate (len - min (t ++ u).length (len - 1)) 0 ++ tail)) := by
      simp only [List.append_assoc]
    rw [e2, List.take_left, List.drop_append]
    have e3 : List.drop (t.length + u.length) t = [] := List.drop_eq_nil_of_le (by omega)
    have e4 : t.length + u.length - t.length = u.length := by omega
    rw [e3, e4, List.nil_append]
    have e5 := List.drop_left (l₁ := List.replicate u.length (0 : Byte))
      (l₂ := List.replicate (len - min (t ++ u).length (len - 1)) 0 ++ tail)
    rw [List.length_replicate] at e5
    rw [e5]
    simp only [List.append_assoc]
  have hlen : (t ++ b).length = t.length + b.length := List.length_append
  by_cases h1 : t.length + b.length < len
  · rw [if_pos h1, copy b (by omega), Out.bind_ok, hlen]
    rfl
  · rw [if_neg h1]
    by_cases h2 : t.length < len - 1
    · rw [if_pos h2, if_pos (by omega), copy _ (by rw [List.length_take]; omega), Out.bind_ok, hlen]
      have : shape len (t ++ b.take (len - 1 - t.length)) tail = shape len (t ++ b) tail := by
        have e : t ++ b = t ++ b.take (len - 1 - t.length) ++ b.drop (len - 1 - t.length) := by
          rw [List.append_assoc, List.take_append_drop]
        rw [e]
        exact (shape_full _ tail (by rw [List.length_append, List.length_take]; omega)).symm
      rw [this]
      rfl
    · rw [if_neg h2, shape_full b tail (by omega), hlen]

theorem pieces_text (m : HMsg) : (pieces m).flatten ++ m.body.getD [] = text m := by
  have h : (m.headers.flatMap (fun h => [h.name, str ": ", h.value, str "\r\n"])).flatten =
      m.headers.flatMap (fun h => h.name ++ str ": " ++ h.value ++ CRLF) := by
    generalize m.headers = hs
    induction hs with
    | nil => rfl
    | cons x hs ih =>
      rw [List.flatMap_cons, List.flatten_append, ih, List.flatMap_cons]
      simp [CRLF, str]
  unfold pieces text
  rw [List.flatten_append, List.flatten_append, h]
  simp [CRLF, str]

/-- What generation writes. -/
theorem generate_shape (m : HMsg) {buf : Bytes} {len : Nat} (h : 0 < len) (hb : len ≤ buf.length) :
    generate m buf len = .ok (shape len (text m) (buf.drop len), (text m).length) := by
  unfold generate
  rw [if_pos hb]
  have e : List.replicate len 0 ++ buf.drop len = shape len [] (buf.drop len) := by
    simp [shape]
  have hc := catAll_shape h (buf.drop len) (pieces m) []
  rw [List.length_nil] at hc
  rw [e, hc, Out.bind_ok, List.nil_append]
  have ht := pieces_text m
  cases hbd : m.body with
  | none =>
    rw [hbd] at ht
    simp only [Option.getD_none, List.append_nil] at ht
    dsimp only
    rw [ht]
    rfl
  | some b =>
    rw [hbd] at ht
    simp only [Option.getD_some] at ht
    dsimp only
    rw [genBody_shape h, ht]

end FreeCoAP.Http
