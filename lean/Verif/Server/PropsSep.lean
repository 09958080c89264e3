import Verif.Server.SpecSep
import Verif.Server.Props
import Verif.Server.LemmasPool
import Verif.Mem.Props

/-! # The registration of paths with separate responses (C129) -/

namespace FreeCoAP.Server.Sep

open FreeCoAP.Msg
open FreeCoAP.Msg.Heap (Clean)
open FreeCoAP.Mem (Pool held)

theorem PInv.lt {base num len : Nat} {L : Large} {ow : List Nat} (h : PInv base num len L ow) : ow.length ≤ num := by
  have hsub : held [] L.log ⊆ Mem.slots base num len := by
    intro p hp
    obtain ⟨i, hi, rfl⟩ := h.rel.mem p hp
    exact List.mem_map.2 ⟨i, List.mem_range.2 hi, rfl⟩
  have := length_le_of_subset h.rel.nodup hsub
  rw [h.perm.length_eq] at this
  simpa [Mem.slots] using this

theorem PInv.len_eq {base num len : Nat} {L : Large} {ow : List Nat} (h : PInv base num len L ow) : L.pool.len = len := h.rel.len_eq

/-- An allocation succeeds exactly when the request fits a buffer and one is free. -/
theorem alloc_iff {base num len l : Nat} {L : Large} {ow : List Nat} (h : PInv base num len L ow) :
    (L.alloc l).1 ≠ none ↔ l ≤ len ∧ ow.length < num := by
  constructor
  · intro hs
    cases ha : L.alloc l with
    | mk r L' =>
      cases r with
      | none => rw [ha] at hs; exact absurd rfl hs
      | some p =>
        have := PInv.lt (h.alloc_some ha)
        refine ⟨?_, by simp at this; omega⟩
        apply Classical.byContradiction
        intro hl
        unfold Large.alloc Pool.alloc at ha
        rw [h.rel.len_eq, if_pos (by omega)] at ha
        cases ha
  · rintro ⟨h1, h2⟩
    obtain ⟨p, L', e⟩ := h.room h2 h1
    rw [e]
    simp

theorem takeWhile_zero {str rest : Bytes} (h : ∀ b ∈ str, b ≠ 0) : (str ++ 0 :: rest).takeWhile (· ≠ 0) = str := by
  induction str with
  | nil => rfl
  | cons b bs ih =>
    have hb := h b (by simp)
    rw [List.cons_append, List.takeWhile_cons, if_pos (by simpa using hb), ih (fun c hc => h c (by simp [hc]))]

/-- What `coap_server_path_new` does. -/
theorem pathNew_cases {size base num len : Nat} {old str : Bytes} {L : Large} {ow : List Nat} (h : PInv base num len L ow) (ho : old.length = len)
    (hs : ∀ b ∈ str, b ≠ 0) :
    (size ≤ len ∧ str.length < len ∧ ow.length + 2 ≤ num ∧
      ∃ p L', pathNew size old L str = .ok (some p, L') ∧ cstr p.text = str ∧ PInv base num len L' ([p.node, p.str] ++ ow)) ∨
    (¬ (size ≤ len ∧ str.length < len ∧ ow.length + 2 ≤ num) ∧ ∃ L', pathNew size old L str = .ok (none, L') ∧ PInv base num len L' ow) := by
  unfold pathNew
  have h1 := alloc_iff (l := size) h
  cases ha : L.alloc size with
  | mk r L1 =>
    rw [ha] at h1
    cases r with
    | none =>
      refine Or.inr ⟨?_, L1, rfl, h.alloc_none ha⟩
      rintro ⟨g1, -, g3⟩
      exact h1.2 ⟨g1, by omega⟩ rfl
    | some p =>
      obtain ⟨g1, g2⟩ := h1.1 (by simp)
      have hi1 := h.alloc_some ha
      have h2 := alloc_iff (l := str.length + 1) hi1
      dsimp only
      cases hb : L1.alloc (str.length + 1) with
      | mk r L2 =>
        rw [hb] at h2
        cases r with
        | none =>
          refine Or.inr ⟨?_, L2.free p, rfl, (hi1.alloc_none hb).free⟩
          rintro ⟨-, g3, g4⟩
          refine h2.2 ⟨by omega, ?_⟩ rfl
          simp only [List.length_cons]
          omega
        | some q =>
          obtain ⟨g3, g4⟩ := h2.1 (by simp)
          simp only [List.length_cons] at g4
          have hi2 := hi1.alloc_some hb
          have hl := PInv.len_eq hi2
          refine Or.inl ⟨g1, by omega, by omega, ⟨p, q, str ++ List.replicate (len - str.length) 0⟩, L2, ?_, ?_,
            hi2.of_perm (List.Perm.swap _ _ _)⟩
          · dsimp only
            rw [hl, if_neg (by omega)]
            have hlen : (str.take (len - 1) ++ List.replicate (len - 1 - str.length) (0 : UInt8)).length = len - 1 := by
              rw [List.length_append, List.length_take, List.length_replicate]
              omega
            unfold strncpy
            rw [wrs_ok (by rw [hlen, ho]; omega)]
            rw [List.take_zero, List.nil_append, Nat.zero_add, hlen, List.take_of_length_le (l := str) (by omega)]
            dsimp only
            rw [List.take_of_length_le (l := str) (by omega)] at hlen
            rw [wrs_ok (by rw [List.length_append, hlen, List.length_drop]; simp; omega)]
            dsimp only
            rw [List.take_append_of_le_length (by omega), List.take_of_length_le (by omega), List.drop_of_length_le
              (by rw [List.length_append, hlen, List.length_drop]; simp; omega), List.append_nil, List.append_assoc]
            rw [show ([0] : Bytes) = List.replicate 1 0 from rfl, List.replicate_append_replicate,
              show len - 1 - str.length + 1 = len - str.length by omega]
          · unfold cstr
            rw [show len - str.length = (len - str.length - 1) + 1 by omega, List.replicate_succ]
            exact takeWhile_zero hs

/-- The state of the list and of the pool after a history. -/
structure Inv (base num len : Nat) (s : State) (reg : List Bytes) (oth : List Nat) : Prop where
  pool : PInv base num len s.small (owned s.list ++ oth)
  text : s.list.map (fun p => cstr p.text) = reg

theorem owned_append (l k : List Path) : owned (l ++ k) = owned l ++ owned k := by simp [owned]

theorem run_inv {size base num len : Nat} : ∀ {xs : List Act} {s : State} {reg : List Bytes} {oth : List Nat}, Inv base num len s reg oth →
    AllFair size len s xs → ∃ rs s', run size s xs = .ok (rs, s') ∧ ∃ oth', Inv base num len s' (reg ++ registered xs rs) oth'
  | [], s, reg, oth, h, _ => ⟨[], s, rfl, oth, by simpa [registered] using h⟩
  | x :: xs, s, reg, oth, h, hf => by
    obtain ⟨hx, hf⟩ := hf
    cases x with
    | add old str =>
      rcases pathNew_cases (size := size) h.pool hx.1 hx.2 with ⟨-, -, -, p, L, g1, g2, g3⟩ | ⟨-, L, g1, g2⟩
      · have hst : step size s (.add old str) = .ok (none, ⟨s.list ++ [p], L⟩) := by
          simp only [step, add, g1]
        have hi : Inv base num len ⟨s.list ++ [p], L⟩ (reg ++ [str]) oth := by
          refine ⟨?_, ?_⟩
          · show PInv base num len L (owned (s.list ++ [p]) ++ oth)
            rw [owned_append]
            refine g3.of_perm ?_
            rw [← List.append_assoc]
            exact List.Perm.append_right _ (List.perm_append_comm)
          · show (s.list ++ [p]).map _ = _
            rw [List.map_append, h.text, List.map_cons, List.map_nil, g2]
        obtain ⟨rs, s', e, oth', hi'⟩ := run_inv hi (hf _ _ hst)
        refine ⟨none :: rs, s', ?_, oth', ?_⟩
        · rw [run, hst]
          simp only [e]
        · rw [registered]
          simpa using hi'
      · have hst : step size s (.add old str) = .ok (some .ENOMEM, { s with small := L }) := by
          simp only [step, add, g1]
        obtain ⟨rs, s', e, oth', hi'⟩ := run_inv (s := { s with small := L }) ⟨g2, h.text⟩ (hf _ _ hst)
        refine ⟨some .ENOMEM :: rs, s', ?_, oth', ?_⟩
        · rw [run, hst]
          simp only [e]
        · simpa [registered] using hi'
    | alloc l =>
      have hst : step size s (.alloc l) = .ok (none, { s with small := (s.small.alloc l).2 }) := rfl
      have hi : ∃ oth', Inv base num len { s with small := (s.small.alloc l).2 } reg oth' := by
        cases ha : s.small.alloc l with
        | mk r L =>
          cases r with
          | none => exact ⟨oth, h.pool.alloc_none ha, h.text⟩
          | some p => exact ⟨p :: oth, (h.pool.alloc_some ha).of_perm List.perm_middle.symm, h.text⟩
      obtain ⟨oth', hi⟩ := hi
      obtain ⟨rs, s', e, oth', hi'⟩ := run_inv hi (hf _ _ hst)
      refine ⟨none :: rs, s', ?_, oth', ?_⟩
      · rw [run, hst]
        simp only [e]
      · simpa [registered] using hi'
    | free p =>
      have hst : step size s (.free p) = .ok (none, { s with small := s.small.free p }) := rfl
      have hp : p ∈ oth := by
        have := h.pool.perm.mem_iff.1 hx.1
        rcases List.mem_append.1 this with h1 | h1
        · exact absurd h1 hx.2
        · exact h1
      have hi : Inv base num len { s with small := s.small.free p } reg (oth.erase p) := by
        refine ⟨PInv.free ?_, h.text⟩
        refine h.pool.of_perm ?_
        exact ((List.perm_cons_erase hp).append_left _).trans List.perm_middle
      obtain ⟨rs, s', e, oth', hi'⟩ := run_inv hi (hf _ _ hst)
      refine ⟨none :: rs, s', ?_, oth', ?_⟩
      · rw [run, hst]
        simp only [e]
      · simpa [registered] using hi'

theorem init_inv {num len : Nat} {pool : Pool} (h : PoolOf num len pool) : ∃ base, Inv base num len (init pool) [] [] := by
  obtain ⟨W, st, st', r1, r2, hp⟩ := h
  exact ⟨_, ⟨⟨Mem.create_rel hp, .refl _, trivial⟩, rfl⟩⟩

theorem pathMatch_iff (l : List Path) (str : Bytes) : pathMatch l str = decide (str ∈ l.map (fun p => cstr p.text)) := by
  induction l with
  | nil => rfl
  | cons p l ih =>
    unfold pathMatch
    split
    · rename_i h; simp [h]
    · rename_i h
      rw [ih]
      have : ¬ str = cstr p.text := fun e => h e.symm
      simp [this]

/-- C129, in full: a request gets a separate response exactly when its path was registered. -/
def C129_statement : Prop :=
  ∀ (size num len : Nat) (pool : Pool) (xs : List Act) (rs : List (Option Err)) (s : State), PoolOf num len pool →
    AllFair size len (init pool) xs → run size (init pool) xs = .ok (rs, s) →
    ∀ m, respType s m = .ok (decide (pathStr m.ops ∈ registered xs rs))

/-- For every request: the decision compares the first 255 bytes of its path, up to the first zero byte, with the registered paths. The history
never fails in another way than by the status of a registration. -/
theorem C129_decided (size num len : Nat) (pool : Pool) (xs : List Act) (hp : PoolOf num len pool) (hf : AllFair size len (init pool) xs) :
    ∃ rs s, run size (init pool) xs = .ok (rs, s) ∧
      ∀ m, respType s m = .ok (decide (((pathStr m.ops).take 255).takeWhile (· ≠ 0) ∈ registered xs rs)) := by
  obtain ⟨base, hi⟩ := init_inv hp
  obtain ⟨rs, s, h, oth, hi⟩ := run_inv hi hf
  refine ⟨rs, s, h, fun m => ?_⟩
  unfold respType
  rw [uriStr_eq _ _ (by decide)]
  dsimp only
  rw [pathMatch_iff, hi.text, List.nil_append]
  rfl

theorem takeWhile_all : ∀ l : Bytes, (∀ b ∈ l, b ≠ 0) → l.takeWhile (· ≠ 0) = l
  | [], _ => rfl
  | b :: bs, h => by
    rw [List.takeWhile_cons, if_pos (by simpa using h b (by simp)), takeWhile_all bs (fun c hc => h c (by simp [hc]))]

/-- What is proved of it: the path has at most 255 bytes and contains no zero byte. -/
theorem C129_separate_partial (size num len : Nat) (pool : Pool) (xs : List Act) (rs : List (Option Err)) (s : State) (hp : PoolOf num len pool)
    (hf : AllFair size len (init pool) xs) (h : run size (init pool) xs = .ok (rs, s)) (m : Msg) (hl : (pathStr m.ops).length ≤ 255)
    (hz : ∀ b ∈ pathStr m.ops, b ≠ 0) : respType s m = .ok (decide (pathStr m.ops ∈ registered xs rs)) := by
  obtain ⟨rs', s', h', hd⟩ := C129_decided size num len pool xs hp hf
  rw [h] at h'
  cases h'
  rw [hd, List.take_of_length_le hl, takeWhile_all _ hz]

/-- The server model keeps the texts only; they decide in the same way. -/
theorem C129_model (s : State) (m : Msg) : respType s m = isSep (s.list.map (fun p => cstr p.text)) m := by
  unfold respType isSep
  rw [uriStr_eq _ _ (by decide), Out.bind_ok]
  dsimp only
  rw [pathMatch_iff]
  simp [Out.pure_eq]

/-- A registration succeeds exactly when the structure and the path fit a buffer and two buffers are free. Otherwise it reports ENOMEM, and the
list and the buffers in use are as before. -/
theorem C129_add (size num len : Nat) (pool : Pool) (xs : List Act) (rs : List (Option Err)) (s : State) (hp : PoolOf num len pool)
    (hf : AllFair size len (init pool) xs) (h : run size (init pool) xs = .ok (rs, s)) (old str : Bytes) (ho : old.length = len)
    (hz : ∀ b ∈ str, b ≠ 0) :
    ∃ r s', step size s (.add old str) = .ok (r, s') ∧
      (r = none ↔ size ≤ len ∧ str.length < len ∧ (used s).length + 2 ≤ num) ∧
      (r ≠ none → r = some .ENOMEM ∧ s'.list = s.list ∧ (used s').Perm (used s)) := by
  obtain ⟨base, hi⟩ := init_inv hp
  obtain ⟨rs', s1, h', oth, hi⟩ := run_inv hi hf
  rw [h] at h'
  cases h'
  have hlen := hi.pool.perm.length_eq
  rcases pathNew_cases (size := size) (old := old) (str := str) hi.pool ho hz with ⟨g1, g2, g3, p, L, g4, -, g5⟩ | ⟨g1, L, g2, g3⟩
  · refine ⟨none, ⟨s.list ++ [p], L⟩, by simp only [step, add, g4], ?_, fun h => absurd rfl h⟩
    rw [used, hlen]
    exact ⟨fun _ => ⟨g1, g2, g3⟩, fun _ => rfl⟩
  · refine ⟨some .ENOMEM, { s with small := L }, by simp only [step, add, g2], ?_, fun _ => ⟨rfl, rfl, g3.perm.trans hi.pool.perm.symm⟩⟩
    rw [used, hlen]
    simp only [reduceCtorEq, false_iff]
    exact g1

theorem destroy_pinv {base num len : Nat} : ∀ {l : List Path} {L : Large} {oth : List Nat}, PInv base num len L (owned l ++ oth) →
    PInv base num len (destroy l L) oth
  | [], _, _, h => h
  | p :: l, L, oth, h => by
    refine destroy_pinv (l := l) ?_
    unfold pathDelete
    have h' : PInv base num len L (p.node :: p.str :: (owned l ++ oth)) := h
    exact (h'.of_perm (List.Perm.swap _ _ _)).free.free

/-- Destroying the list gives back its buffers and no others, each once. -/
theorem C129_destroy (size num len : Nat) (pool : Pool) (xs : List Act) (rs : List (Option Err)) (s : State) (hp : PoolOf num len pool)
    (hf : AllFair size len (init pool) xs) (h : run size (init pool) xs = .ok (rs, s)) :
    (used s).Perm (owned s.list ++ held [] (destroy s.list s.small).log) ∧ Clean [] (destroy s.list s.small).log := by
  obtain ⟨base, hi⟩ := init_inv hp
  obtain ⟨rs', s1, h', oth, hi⟩ := run_inv hi hf
  rw [h] at h'
  cases h'
  have hd := destroy_pinv hi.pool
  exact ⟨hi.pool.perm.trans (hd.perm.symm.append_left _), hd.clean⟩

/-- A pool of eight buffers of 300 bytes. -/
def exSmall : Pool := ⟨1000, 8, 300, 9000, [0]⟩

theorem exSmall_of : PoolOf 8 300 exSmall :=
  ⟨2 ^ 64, [], _, some 1000, some 9000, rfl⟩

def exOld : Bytes := List.replicate 300 7

/-- The server registers `/b`; a message is created and deleted; `/cc` is registered. -/
def exActs : List Act := [.add exOld [47, 98], .alloc 20, .free 1600, .add exOld [47, 99, 99]]

/-- The history of the example. -/
def exAfter : State := match run 16 (init exSmall) exActs with
  | .ok (_, s) => s
  | _ => init exSmall

theorem exActs_run : run 16 (init exSmall) exActs = .ok ([none, none, none, none], exAfter) := by decide +kernel

example : registered exActs [none, none, none, none] = [[47, 98], [47, 99, 99]] := rfl

theorem exActs_fair : AllFair 16 300 (init exSmall) exActs := by
  refine ⟨⟨by decide +kernel, by decide⟩, fun r s h => ?_⟩
  refine ⟨trivial, fun r1 s1 h1 => ?_⟩
  have e : step 16 (init exSmall) (.add exOld [47, 98]) = .ok (r, s) := h
  have e1 : s1 = { s with small := (s.small.alloc 20).2 } := (Prod.mk.inj (Out.ok.inj h1)).2.symm
  have hs : s = (match step 16 (init exSmall) (.add exOld [47, 98]) with | .ok (_, s) => s | _ => init exSmall) := by rw [e]
  subst e1
  refine ⟨?_, fun r2 s2 h2 => ⟨⟨by decide +kernel, by decide⟩, fun _ _ _ => trivial⟩⟩
  rw [hs]
  show _ ∈ _ ∧ _ ∉ _
  decide +kernel

/-- A request for `/b`. -/
def exAsk (v : Bytes) : Msg := { ver := 1, type := 0, codeClass := 0, codeDetail := 1, msgId := 1, token := [], ops := [⟨11, v⟩], payload := [] }

example : respType exAfter (exAsk [98]) = .ok true :=
  C129_separate_partial 16 8 300 exSmall exActs _ _ exSmall_of exActs_fair exActs_run (exAsk [98]) (by decide) (by decide)

example : respType exAfter (exAsk [99]) = .ok false :=
  C129_separate_partial 16 8 300 exSmall exActs _ _ exSmall_of exActs_fair exActs_run (exAsk [99]) (by decide) (by decide)

example : (used exAfter).length = 4 ∧
    (match step 16 exAfter (.add exOld (List.replicate 300 98)) with | .ok (r, _) => r | _ => none) = some .ENOMEM := by
  decide +kernel

example : held [] (destroy exAfter.list exAfter.small).log = [] := by decide +kernel

/-- A path of 256 bytes. -/
def exLong : Bytes := List.replicate 255 97

def exLongAfter (str : Bytes) : State := match run 16 (init exSmall) [.add exOld str] with
  | .ok (_, s) => s
  | _ => init exSmall

/-- A path of 256 bytes is registered with success, and requests for it still do not get a separate response. -/
theorem C129_violated : ¬ C129_statement := by
  intro h
  have := h 16 8 300 exSmall [.add exOld (47 :: exLong)] [none] (exLongAfter (47 :: exLong)) exSmall_of
    ⟨⟨by decide +kernel, by decide +kernel⟩, fun _ _ _ => trivial⟩ (by decide +kernel) (exAsk exLong)
  revert this
  decide +kernel

/-- A request for a longer path that begins with a registered path of 255 bytes gets a separate response. -/
theorem C129_violated_longer : ¬ C129_statement := by
  intro h
  have := h 16 8 300 exSmall [.add exOld ((47 :: exLong).take 255)] [none] (exLongAfter ((47 :: exLong).take 255)) exSmall_of
    ⟨⟨by decide +kernel, by decide +kernel⟩, fun _ _ _ => trivial⟩ (by decide +kernel) (exAsk exLong)
  revert this
  decide +kernel

/-- A request whose path contains a zero byte after a registered path gets a separate response. -/
theorem C129_violated_zero : ¬ C129_statement := by
  intro h
  have := h 16 8 300 exSmall [.add exOld [47, 98]] [none] (exLongAfter [47, 98]) exSmall_of
    ⟨⟨by decide +kernel, by decide⟩, fun _ _ _ => trivial⟩ (by decide +kernel) (exAsk [98, 0, 99])
  revert this
  decide +kernel

end FreeCoAP.Server.Sep
