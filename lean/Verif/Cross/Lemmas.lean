import Verif.Cross.Model
import Verif.Cross.Spec
import Verif.Uri.LemmasParse
import Verif.Msg.LemmasMisc

/-!
# Lemmas for the conversion of URIs
-/

namespace FreeCoAP.Cross

open FreeCoAP.Msg (Msg Op Sorted)
open FreeCoAP.Uri (Uri)

/-! ## Decoding -/

theorem hex_toInt {c : Byte} {n : Nat} (h : Hex c n) : Uri.hexToInt c = some n := by
  have := forall_byte (P := fun c => ∀ n : Fin 16, toUpper c = Uri.hexDigit n.1 → Uri.hexToInt c = some n.1) (by decide +kernel) c
  exact this ⟨n, h.1⟩ h.2

theorem toInt_hex {c : Byte} {n : Nat} (h : Uri.hexToInt c = some n) : Hex c n := by
  have := forall_byte (P := fun c => (Uri.hexToInt c).all (fun n => decide (n < 16 ∧ toUpper c = Uri.hexDigit n)) = true)
    (by decide +kernel) c
  rw [h] at this
  simp only [Option.all_some, decide_eq_true_eq] at this
  exact this

theorem twoHex_eq {a b : Byte} {i j : Nat} (ha : Hex a i) (hb : Hex b j) : Uri.twoHexToInt a b = some (i * 16 + j) := by
  unfold Uri.twoHexToInt
  rw [hex_toInt ha]
  dsimp only
  rw [hex_toInt hb]

theorem Decodes.decodeStr {sx : Bool} {t s : Bytes} (h : Decodes t s) (hff : sx = true → (0xFF : Byte) ∉ t) :
    Uri.decodeStr sx t = some s := by
  induction h with
  | nil => rfl
  | char hc _ ih =>
    rw [Uri.decodeStr_plain _ hc (fun hs e => hff hs (e ▸ List.mem_cons_self)), ih (fun hs e => hff hs (List.mem_cons_of_mem _ e))]
    rfl
  | escape ha hb _ ih =>
    rw [Uri.decodeStr.eq_def]
    simp only [if_true]
    rw [twoHex_eq ha hb]
    dsimp only
    rw [ih (fun hs e => hff hs (List.mem_cons_of_mem _ (List.mem_cons_of_mem _ (List.mem_cons_of_mem _ e))))]
    rfl

/-- The converse, to find what texts decode to. -/
theorem decodes_of : ∀ {t s : Bytes}, Uri.decodeStr false t = some s → Decodes t s
  | [], s, h => by cases h; exact .nil
  | c :: t, s, h => by
    rw [Uri.decodeStr.eq_def] at h
    simp only at h
    by_cases hc : c = 0x25
    · rw [if_pos hc] at h
      subst hc
      split at h
      · rename_i a b rest
        split at h
        · cases h
        · rename_i v hv
          cases hd : Uri.decodeStr false rest with
          | none => rw [hd] at h; cases h
          | some t' =>
            rw [hd] at h
            cases h
            unfold Uri.twoHexToInt at hv
            split at hv
            · cases hv
            · rename_i i hi
              split at hv
              · cases hv
              · rename_i j hj
                cases hv
                exact .escape (toInt_hex hi) (toInt_hex hj) (decodes_of hd)
      · cases h
    · rw [if_neg hc, if_neg (by simp)] at h
      cases hd : Uri.decodeStr false t with
      | none => rw [hd] at h; cases h
      | some t' =>
        rw [hd] at h
        cases h
        exact .char hc (decodes_of hd)

theorem decodes_plain {t : Bytes} (h : (0x25 : Byte) ∉ t) : Decodes t t := by
  induction t with
  | nil => exact .nil
  | cons c t ih => exact .char (fun e => h (e ▸ List.mem_cons_self)) (ih (fun e => h (List.mem_cons_of_mem _ e)))

theorem Decodes.append {t s t' s' : Bytes} (h : Decodes t s) (h' : Decodes t' s') : Decodes (t ++ t') (s ++ s') := by
  induction h with
  | nil => exact h'
  | char hc _ ih => exact .char hc ih
  | escape ha hb _ ih => exact .escape ha hb ih

theorem AllDecode.join {ts ss : List Bytes} {sep : Byte} (hs : sep ≠ 0x25) (h : AllDecode ts ss) :
    Decodes (Cross.join sep ts) (Cross.join sep ss) := by
  induction h with
  | nil => exact .nil
  | cons h1 h2 ih =>
    cases h2 with
    | nil => exact h1
    | cons h3 h4 => exact h1.append (.char hs ih)

theorem AllDecode.nil_iff {ts ss : List Bytes} (h : AllDecode ts ss) : ts = [] ↔ ss = [] := by
  cases h <;> simp

theorem component_eq {sx : Bool} {mem : Uri.Site → Bool} {site : Uri.Site} {t s : Bytes} (hm : mem site = true)
    (h : Decodes t s) (hff : (0xFF : Byte) ∉ t) (h0 : (0 : Byte) ∉ s) : Uri.component sx mem site t = .ok s := by
  rw [Uri.component_eq]; unfold Uri.decode
  rw [if_pos hm, h.decodeStr (fun _ => hff)]
  dsimp only
  rw [cstr_of_no_nul h0]

/-! ## Splitting -/

theorem split_plain {sep : Byte} {s : Bytes} (h : sep ∉ s) : split sep s = [s] := by
  induction s with
  | nil => rfl
  | cons c s ih =>
    have hc : c ≠ sep := fun e => h (e ▸ List.mem_cons_self)
    unfold split
    rw [if_neg hc, ih (fun e => h (List.mem_cons_of_mem _ e))]

theorem split_append {sep : Byte} {s : Bytes} (r : Bytes) (h : sep ∉ s) : split sep (s ++ sep :: r) = s :: split sep r := by
  induction s with
  | nil => simp [split]
  | cons c s ih =>
    have hc : c ≠ sep := fun e => h (e ▸ List.mem_cons_self)
    rw [List.cons_append, split, if_neg hc, ih (fun e => h (List.mem_cons_of_mem _ e))]

theorem split_join {sep : Byte} : ∀ {ss : List Bytes}, ss ≠ [] → (∀ s ∈ ss, sep ∉ s) → split sep (join sep ss) = ss
  | [], h, _ => absurd rfl h
  | [s], _, h => split_plain (h s (by simp))
  | s :: s' :: ss, _, h => by
    rw [join, split_append _ (h s (by simp)), split_join (by simp) (fun x hx => h x (List.mem_cons_of_mem _ hx))]
    simp

theorem split_ne_nil {sep : Byte} (s : Bytes) : split sep s ≠ [] := by
  cases s with
  | nil => simp [split]
  | cons c s =>
    unfold split
    split
    · simp
    · split <;> simp

theorem split_no_sep {sep : Byte} (s : Bytes) : ∀ p ∈ split sep s, sep ∉ p := by
  induction s with
  | nil => simp [split]
  | cons c s ih =>
    unfold split
    by_cases hc : c = sep
    · rw [if_pos hc]
      intro p hp
      rcases List.mem_cons.1 hp with rfl | hp
      · simp
      · exact ih p hp
    · rw [if_neg hc]
      split
      · intro p hp
        simp only [List.mem_singleton] at hp
        subst hp
        simpa using fun e => hc e.symm
      · rename_i q qs hq
        rw [hq] at ih
        intro p hp
        rcases List.mem_cons.1 hp with rfl | hp
        · simp only [List.mem_cons, not_or]
          exact ⟨fun e => hc e.symm, ih q (by simp)⟩
        · exact ih p (List.mem_cons_of_mem _ hp)

theorem join_cons {sep : Byte} {s : Bytes} {ss : List Bytes} (h : ss ≠ []) : join sep (s :: ss) = s ++ sep :: join sep ss := by
  cases ss with
  | nil => exact absurd rfl h
  | cons a ss => rfl

theorem join_split {sep : Byte} (s : Bytes) : join sep (split sep s) = s := by
  induction s with
  | nil => rfl
  | cons c s ih =>
    unfold split
    by_cases hc : c = sep
    · rw [if_pos hc, join_cons (split_ne_nil s), ih, hc]
      rfl
    · rw [if_neg hc]
      split
      · rename_i h
        exact absurd h (split_ne_nil s)
      · rename_i q qs hq
        rw [hq] at ih
        cases qs with
        | nil => simp only [join] at ih ⊢; rw [ih]
        | cons a qs =>
          rw [join_cons (by simp)] at ih ⊢
          rw [List.cons_append, ih]

theorem mem_join {sep c : Byte} : ∀ {ss : List Bytes}, c ∈ join sep ss → c = sep ∨ ∃ s ∈ ss, c ∈ s
  | [], h => by cases h
  | [s], h => Or.inr ⟨s, by simp, h⟩
  | s :: s' :: ss, h => by
    rw [join_cons (by simp)] at h
    rcases List.mem_append.1 h with h | h
    · exact Or.inr ⟨s, by simp, h⟩
    · rcases List.mem_cons.1 h with h | h
      · exact Or.inl h
      · rcases mem_join h with h | ⟨x, hx, h⟩
        · exact Or.inl h
        · exact Or.inr ⟨x, List.mem_cons_of_mem _ hx, h⟩

theorem mem_join_of {sep c : Byte} {s : Bytes} : ∀ {ss : List Bytes}, s ∈ ss → c ∈ s → c ∈ join sep ss
  | [x], h1, h2 => by simp only [List.mem_singleton] at h1; subst h1; exact h2
  | x :: x' :: ss, h1, h2 => by
    rw [join_cons (by simp)]
    rcases List.mem_cons.1 h1 with rfl | h1
    · exact List.mem_append_left _ h2
    · exact List.mem_append_right _ (List.mem_cons_of_mem _ (mem_join_of h1 h2))

/-- A path with at least one segment. -/
theorem path_eq {segs : List Bytes} (h : segs ≠ []) : segs.flatMap (fun s => 0x2F :: s) = 0x2F :: join 0x2F segs := by
  induction segs with
  | nil => exact absurd rfl h
  | cons s ss ih =>
    rw [List.flatMap_cons]
    cases ss with
    | nil => simp [join]
    | cons a ss => rw [ih (by simp), join_cons (s := s) (by simp)]; rfl

/-! ## Options -/

theorem values_addOp {m : Msg} (hs : Sorted m.ops) (k num : Nat) (v : Bytes) :
    values k (Msg.addOp m num v) = values k m ++ (if num = k then [v] else []) := by
  unfold values Msg.addOp
  dsimp only
  rw [Msg.opListAdd_eq, Msg.ins_filter _ _ _ hs, List.filter_append, List.map_append]
  congr 1
  by_cases h : num = k
  · simp [h]
  · simp [h]

/-- Options were added to a message: `vs` with the number `num`. -/
structure Added (m m' : Msg) (num : Nat) (vs : List Bytes) : Prop where
  vals : ∀ k, values k m' = values k m ++ (if num = k then vs else [])
  rest : m' = { m with ops := m'.ops }
  sorted : Sorted m'.ops

theorem Added.refl {m : Msg} (hs : Sorted m.ops) (num : Nat) : Added m m num [] := ⟨fun k => by simp, rfl, hs⟩

theorem Added.trans {m m' m'' : Msg} {num : Nat} {vs ws : List Bytes} (h : Added m m' num vs) (h' : Added m' m'' num ws) :
    Added m m'' num (vs ++ ws) := by
  refine ⟨fun k => ?_, ?_, h'.sorted⟩
  · rw [h'.vals, h.vals]
    split <;> simp
  · rw [h'.rest, h.rest]

theorem addOp_added {env : Env} {m m' : Msg} {num : Nat} {s : Bytes} (hs : Sorted m.ops) (hl : s.length < 2 ^ 32)
    (h : addOp env m num s = .ok m') : Added m m' num [s] := by
  unfold addOp at h
  rw [Nat.mod_eq_of_lt hl, List.take_of_length_le (Nat.le_refl _)] at h
  split at h
  · cases h
    refine ⟨fun k => values_addOp hs k num s, rfl, ?_⟩
    unfold Msg.addOp
    dsimp only
    rw [Msg.opListAdd_eq]
    exact Msg.ins_sorted _ _ hs
  · cases h

theorem addOp_ok {env : Env} (he : ∀ m n, env.op m n = true) (m : Msg) (num : Nat) (s : Bytes) :
    ∃ m', addOp env m num s = .ok m' := ⟨_, by unfold addOp; rw [if_pos (he _ _)]⟩

theorem addComponent_added {env : Env} {m m' : Msg} {num : Nat} {o : Option Bytes} (hs : Sorted m.ops)
    (hl : ∀ s, o = some s → s.length < 2 ^ 32) (h : addComponent env num m o = .ok m') : Added m m' num o.toList := by
  cases o with
  | none => cases h; exact Added.refl hs num
  | some s => exact addOp_added hs (hl s rfl) h

theorem addComponent_ok {env : Env} (he : ∀ m n, env.op m n = true) (m : Msg) (num : Nat) (o : Option Bytes) :
    ∃ m', addComponent env num m o = .ok m' := by
  cases o with
  | none => exact ⟨m, rfl⟩
  | some s => exact addOp_ok he m num s

theorem addParts_added {env : Env} {num : Nat} : ∀ {ps : List Bytes} {m m' : Msg}, Sorted m.ops →
    (∀ p ∈ ps, p.length < 2 ^ 32) → addParts env num m ps = .ok m' → Added m m' num (ps.filter (· ≠ []))
  | [], m, m', hs, _, h => by cases h; exact Added.refl hs num
  | p :: ps, m, m', hs, hl, h => by
    have hp := hl p (by simp)
    unfold addParts at h
    rw [Nat.mod_eq_of_lt hp] at h
    split at h
    · rename_i hn
      obtain ⟨m1, h1, h2⟩ := Out.bind_eq_ok.1 h
      have k1 := addOp_added hs hp h1
      have k2 := addParts_added k1.sorted (fun x hx => hl x (List.mem_cons_of_mem _ hx)) h2
      have : p ≠ [] := by intro e; subst e; simp at hn
      rw [List.filter_cons_of_pos (by simpa using this)]
      exact k1.trans k2
    · rename_i hn
      have : p = [] := List.length_eq_zero_iff.1 (by omega)
      rw [List.filter_cons_of_neg (by simpa using this)]
      exact addParts_added hs (fun x hx => hl x (List.mem_cons_of_mem _ hx)) h

theorem addParts_ok {env : Env} (he : ∀ m n, env.op m n = true) {num : Nat} : ∀ (ps : List Bytes) (m : Msg),
    ∃ m', addParts env num m ps = .ok m'
  | [], m => ⟨m, rfl⟩
  | p :: ps, m => by
    unfold addParts
    split
    · obtain ⟨m1, h1⟩ := addOp_ok he m num p
      rw [h1, Out.bind_ok]
      exact addParts_ok he ps m1
    · exact addParts_ok he ps m

end FreeCoAP.Cross
