import Verif.DataBuf.Lemmas

/-!
# C49: the data buffer is a bounded queue
-/

namespace FreeCoAP.DataBuf

/-- C49 in full: after a successful creation, any calls have a defined outcome and show
what an ideal queue shows. -/
def C49_statement (W : Nat) : Prop :=
  ∀ size max mem b cs, size < W → max < W → create W size max mem = .ok b → Allocates cs →
    ∃ os b', run W b cs = .ok (os, b') ∧ queue W max size [] cs = (os, b'.size, content b') ∧
      taken cs os = given os ++ content b' ∧ b'.count ≤ b'.size ∧ b'.size ≤ max

/-- C49 holds when twice the maximum size fits in a `size_t`. What was taken in is what was
given out followed by what is still there; every call returns what the ideal queue returns;
the count never exceeds the size nor the size the maximum, and nothing outside the block is
touched. The free part of the buffer is zero. -/
theorem C49_queue_partial {W size max : Nat} {mem : Bool} {b : Buf} (cs : List Call) (hW : 2 * max + 1 < W)
    (hc : create W size max mem = .ok b) (ha : Allocates cs) :
    ∃ os b', run W b cs = .ok (os, b') ∧ queue W max size [] cs = (os, b'.size, content b') ∧
      taken cs os = given os ++ content b' ∧ (content b').length = b'.count ∧ b'.count ≤ b'.size ∧ b'.size ≤ max ∧
      (b'.data.drop b'.count).take (b'.size - b'.count) = List.replicate (b'.size - b'.count) 0 := by
  obtain ⟨i, es, ec⟩ := create_inv hW hc
  obtain ⟨os, b', e1, i1, q1⟩ := run_queue hW cs b i ha
  rw [es, ec] at q1
  have := queue_order W max cs size [] (by simp)
  rw [q1] at this
  exact ⟨os, b', e1, q1, this, content_length i1, i1.count, i1.size, i1.rest⟩

/-- Creation succeeds exactly when the size is at most the maximum and there is memory. -/
theorem C49_create (W size max : Nat) (mem : Bool) :
    ((∃ b, create W size max mem = .ok b) ↔ size ≤ max ∧ mem = true) ∧
    (max < size → create W size max mem = .err .EINVAL) ∧ (size ≤ max → mem = false → create W size max mem = .err .ENOMEM) := by
  unfold create
  by_cases h : size > max
  · rw [if_pos h]
    exact ⟨⟨fun ⟨b, hb⟩ => (by cases hb), fun ⟨h', _⟩ => absurd h' (by omega)⟩, fun _ => rfl, fun h' => absurd h' (by omega)⟩
  · rw [if_neg h]
    refine ⟨?_, fun h' => absurd h' h, fun _ hm => by rw [hm]; rfl⟩
    cases mem <;> simp <;> omega

/-- The calls of an exchange: 5 bytes into a buffer of 4, an expansion, the rest, two
consumptions. -/
def exCalls : List Call := [.put [1, 2, 3, 4, 5], .expand (fun n => some (List.replicate n 9)), .put [5], .consume 3, .consume 9]

/-- The hypotheses of C49 are met, and the calls do what one expects. -/
example : 2 * 16 + 1 < 2 ^ 64 ∧ create (2 ^ 64) 4 16 true = .ok ⟨0, 4, 16, [0, 0, 0, 0, 0]⟩ ∧ Allocates exCalls ∧
    run (2 ^ 64) ⟨0, 4, 16, [0, 0, 0, 0, 0]⟩ exCalls =
      .ok ([.put 4, .expanded, .put 1, .consume [1, 2, 3], .consume [4, 5]],
        ⟨0, 8, 16, [0, 0, 0, 0, 0, 0, 0, 0, 9]⟩) := by
  refine ⟨by decide, by decide, ?_, by decide +kernel⟩
  intro c hc fresh he n block hb
  subst he
  simp only [exCalls, List.mem_cons, Call.expand.injEq, List.not_mem_nil, or_false, reduceCtorEq, false_or] at hc
  subst hc
  cases hb
  simp

/-- The calls that wrap the size around: a buffer of half the address space, two bytes, an
expansion. -/
def wrapCalls : List Call := [.put [1, 2], .expand (fun n => some (List.replicate n 0))]

/-- C49 fails for a buffer of half the address space, whatever the width of `size_t`:
doubling its size gives 0, and the bytes are copied to a block that is too small. -/
theorem C49_violated (s : Nat) (hs : 2 ≤ s) : ¬ C49_statement (2 * s) := by
  intro h
  have hc : create (2 * s) s (2 * s - 1) true = .ok ⟨0, s, 2 * s - 1, List.replicate (s + 1) 0⟩ := by
    unfold create
    rw [if_neg (by omega), if_pos rfl, Nat.mod_eq_of_lt (by omega)]
  obtain ⟨os, b', e, -⟩ := h s (2 * s - 1) true _ wrapCalls (by omega) (by omega) hc (by
    intro c hc fresh he n block hb
    subst he
    simp only [wrapCalls, List.mem_cons, Call.expand.injEq, List.not_mem_nil, or_false, reduceCtorEq, false_or] at hc
    subst hc
    cases hb
    simp)
  generalize hd : List.replicate (s + 1) (0 : Byte) = d at e
  have hl : d.length = s + 1 := by rw [← hd, List.length_replicate]
  have e0 : space (2 * s) ⟨0, s, 2 * s - 1, d⟩ = s := by
    simp only [space]; rw [Nat.sub_zero, Nat.add_mod_right, Nat.mod_eq_of_lt (by omega)]
  have e0' : space (2 * s) ⟨0, s, 2 * s - 1, [1, 2] ++ d.drop 2⟩ = s := by
    simp only [space]; rw [Nat.sub_zero, Nat.add_mod_right, Nat.mod_eq_of_lt (by omega)]
  have e1 : copyTo d 0 [1, 2] = .ok ([1, 2] ++ d.drop 2) := by
    unfold copyTo; rw [if_pos (by rw [hl]; simp; omega)]; simp
  have e2 : slice ([1, 2] ++ d.drop 2) 0 2 = .ok [1, 2] := by
    unfold slice; rw [if_pos (by simp)]; simp
  have e3 : copyTo (List.replicate 1 0) 0 [1, 2] = .ub := by decide
  have e4 : add (2 * s) ⟨0, s, 2 * s - 1, [1, 2] ++ d.drop 2⟩ 2 = (2, ⟨2, s, 2 * s - 1, [1, 2] ++ d.drop 2⟩) := by
    simp only [add, e0', if_neg (show ¬ 2 > s by omega)]
    rw [Nat.mod_eq_of_lt (by omega)]
  have e5 : expand (2 * s) ⟨2, s, 2 * s - 1, [1, 2] ++ d.drop 2⟩ (fun n => some (List.replicate n 0)) = .ub := by
    unfold expand
    simp only [Nat.mod_self, e2, Out.bind_ok]
    rw [if_neg (by omega), Nat.mod_eq_of_lt (show 0 + 1 < 2 * s by omega), e3]
    rfl
  have e6 : put (2 * s) ⟨0, s, 2 * s - 1, d⟩ [1, 2] = .ok (2, ⟨2, s, 2 * s - 1, [1, 2] ++ d.drop 2⟩) := by
    unfold put
    rw [e0, List.take_of_length_le (by simp; omega), e1, Out.bind_ok]
    exact congrArg Out.ok e4
  simp only [run, wrapCalls, step, e6, e5, Out.bind_ok, Out.pure_eq, Out.bind_ub] at e
  cases e

end FreeCoAP.DataBuf
