import Verif.Cross.LemmasBack
import Verif.Http.Props

/-!
# Lemmas for the conversion of messages
-/

namespace FreeCoAP.Cross

open FreeCoAP.Msg (Msg Op Sorted)
open FreeCoAP.Http (HMsg Header)

/-! ## Digits -/

theorem digit_facts (n : Nat) (h : n < 10) : isDigit (UInt8.ofNat (0x30 + n)) = true ∧ (UInt8.ofNat (0x30 + n)).toNat - 0x30 = n := by
  have : ∀ n : Fin 10, isDigit (UInt8.ofNat (0x30 + n.1)) = true ∧ (UInt8.ofNat (0x30 + n.1)).toNat - 0x30 = n.1 := by decide +kernel
  exact this ⟨n, h⟩

theorem digits_digit : ∀ (f n : Nat), ∀ c ∈ digits f n, isDigit c = true
  | 0, n, c, hc => by
    simp only [digits, List.mem_singleton] at hc
    subst hc
    exact (digit_facts _ (Nat.mod_lt _ (by decide))).1
  | f + 1, n, c, hc => by
    unfold digits at hc
    split at hc
    · simp only [List.mem_singleton] at hc
      subst hc
      rename_i h
      exact (digit_facts _ h).1
    · rcases List.mem_append.1 hc with hc | hc
      · exact digits_digit f _ c hc
      · simp only [List.mem_singleton] at hc
        subst hc
        exact (digit_facts _ (Nat.mod_lt _ (by decide))).1

theorem digits_ne_nil (f n : Nat) : digits f n ≠ [] := by
  cases f with
  | zero => simp [digits]
  | succ f =>
    unfold digits
    split <;> simp

theorem ofDecimal_digits : ∀ (f n : Nat), n < 10 ^ (f + 1) → Http.ofDecimal (digits f n) = n
  | 0, n, h => by
    have hn : n < 10 := by simpa using h
    unfold digits Http.ofDecimal
    rw [Nat.mod_eq_of_lt hn]
    simp only [List.foldl_cons, List.foldl_nil]
    rw [(digit_facts n hn).2]
    omega
  | f + 1, n, h => by
    unfold digits
    split
    · rename_i hn
      unfold Http.ofDecimal
      simp only [List.foldl_cons, List.foldl_nil]
      rw [(digit_facts n hn).2]
      omega
    · have ih := ofDecimal_digits f (n / 10) (by
        rw [Nat.pow_succ] at h
        exact Nat.div_lt_of_lt_mul (by omega))
      unfold Http.ofDecimal at ih ⊢
      rw [List.foldl_append, ih]
      simp only [List.foldl_cons, List.foldl_nil]
      rw [(digit_facts _ (Nat.mod_lt n (by decide))).2]
      omega

theorem digits_length : ∀ (f n : Nat), (digits f n).length ≤ f + 1
  | 0, n => by simp [digits]
  | f + 1, n => by
    unfold digits
    split
    · simp
    · have := digits_length f (n / 10)
      simp only [List.length_append, List.length_cons, List.length_nil]
      omega

/-! ## Requests -/

/-- What the headers of a request add to a message. -/
structure HeadersAdded (m m' : Msg) (hs : List Header) : Prop where
  etag : values 4 m' = values 4 m ++ headerValues "Etag" hs
  accept : values 17 m' = values 17 m ++ (headerValues "Accept" hs).map (fun _ => str "0")
  text : ∀ v ∈ headerValues "Accept" hs, (v.take 10).map toLower = str "text/plain"
  others : ∀ k, k ≠ 4 → k ≠ 14 → k ≠ 17 → values k m' = values k m
  age : ∃ ns : List Nat, values 14 m' = values 14 m ++ ns.map (digits 9)
  rest : m' = { m with ops := m'.ops }
  sorted : Sorted m'.ops

theorem Reply.bind_eq_ok {α β : Type} {x : Reply α} {f : α → Reply β} {b : β} : x.bind f = .ok b ↔ ∃ a, x = .ok a ∧ f a = .ok b := by
  cases x <;> simp [Reply.bind]

theorem Reply.bind_eq_fail {α β : Type} {x : Reply α} {f : α → Reply β} {e : Err} {c : Nat} :
    x.bind f = .fail e c ↔ x = .fail e c ∨ ∃ a, x = .ok a ∧ f a = .fail e c := by
  cases x <;> simp [Reply.bind]

theorem Reply.bind_eq_ub {α β : Type} {x : Reply α} {f : α → Reply β} : x.bind f = .ub ↔ x = .ub ∨ ∃ a, x = .ok a ∧ f a = .ub := by
  cases x <;> simp [Reply.bind]

theorem coded_eq_ok {α : Type} {c : Nat} {x : Out α} {a : α} : coded c x = .ok a ↔ x = .ok a := by
  cases x <;> simp [coded]

theorem coded_eq_fail {α : Type} {c c' : Nat} {x : Out α} {e : Err} : coded c x = .fail e c' ↔ x = .err e ∧ c = c' := by
  cases x <;> simp [coded]

theorem coded_eq_ub {α : Type} {c : Nat} {x : Out α} : coded c x = .ub ↔ x = .ub := by
  cases x <;> simp [coded]

theorem headerValues_cons_pos {n : String} {h : Header} {hs : List Header} (hn : Http.Named h n) :
    headerValues n (h :: hs) = h.value :: headerValues n hs := by
  unfold headerValues
  rw [List.filter_cons_of_pos (by simpa using hn), List.map_cons]

theorem headerValues_cons_neg {n : String} {h : Header} {hs : List Header} (hn : ¬ Http.Named h n) :
    headerValues n (h :: hs) = headerValues n hs := by
  unfold headerValues
  rw [List.filter_cons_of_neg (by simpa using hn)]

theorem headersToCoap_added {env : Env} : ∀ {hs : List Header} {m m' : Msg}, Sorted m.ops → (∀ h ∈ hs, h.value.length < 2 ^ 32) →
    headersToCoap env m hs = .ok m' → HeadersAdded m m' hs
  | [], m, m', hs, _, h => by
    cases h
    exact ⟨by simp [headerValues], by simp [headerValues], by simp [headerValues], fun _ _ _ _ => rfl, ⟨[], by simp⟩, rfl, hs⟩
  | x :: hs, m, m', hso, hl, h => by
    unfold headersToCoap at h
    obtain ⟨m1, h1, h2⟩ := Reply.bind_eq_ok.1 h
    clear h
    have hx := hl x (by simp)
    unfold headerToCoap at h1
    split at h1
    · rename_i hn
      rw [Http.sameText_iff] at hn
      have k := addOp_added hso hx (coded_eq_ok.1 h1)
      have ih := headersToCoap_added k.sorted (fun y hy => hl y (List.mem_cons_of_mem _ hy)) h2
      have hna : ¬ Http.Named x "Accept" := by
        intro h
        rw [Http.Named, hn] at h
        exact absurd h (by decide)
      refine ⟨?_, ?_, ?_, ?_, ?_, ?_, ih.sorted⟩
      · rw [ih.etag, k.vals, headerValues_cons_pos hn]; simp
      · rw [ih.accept, k.vals, headerValues_cons_neg hna]; simp
      · rw [headerValues_cons_neg hna]; exact ih.text
      · intro j j1 j2 j3
        rw [ih.others j j1 j2 j3, k.vals, if_neg (Ne.symm j1), List.append_nil]
      · obtain ⟨ns, e⟩ := ih.age
        refine ⟨ns, ?_⟩
        rw [e, k.vals]; simp
      · rw [ih.rest, k.rest]
    · rename_i hne
      rw [Bool.not_eq_true] at hne
      have hne' : ¬ Http.Named x "Etag" := fun h => by rw [(Http.sameText_iff x "Etag").2 h] at hne; cases hne
      split at h1
      · rename_i hn
        rw [Http.sameText_iff] at hn
        have hna : ¬ Http.Named x "Accept" := by
          intro h
          rw [Http.Named, hn] at h
          exact absurd h (by decide)
        split at h1
        · cases h1
          have ih := headersToCoap_added hso (fun y hy => hl y (List.mem_cons_of_mem _ hy)) h2
          refine ⟨?_, ?_, ?_, ih.others, ih.age, ih.rest, ih.sorted⟩
          · rw [ih.etag, headerValues_cons_neg hne']
          · rw [ih.accept, headerValues_cons_neg hna]
          · rw [headerValues_cons_neg hna]; exact ih.text
        · rename_i n _
          have hd := digits_length 9 n
          have k := addOp_added hso (by omega) (coded_eq_ok.1 h1)
          have ih := headersToCoap_added k.sorted (fun y hy => hl y (List.mem_cons_of_mem _ hy)) h2
          refine ⟨?_, ?_, ?_, ?_, ?_, ?_, ih.sorted⟩
          · rw [ih.etag, k.vals, headerValues_cons_neg hne']; simp
          · rw [ih.accept, k.vals, headerValues_cons_neg hna]; simp
          · rw [headerValues_cons_neg hna]; exact ih.text
          · intro j j1 j2 j3
            rw [ih.others j j1 j2 j3, k.vals, if_neg (Ne.symm j2), List.append_nil]
          · obtain ⟨ns, e⟩ := ih.age
            refine ⟨n :: ns, ?_⟩
            rw [e, k.vals]; simp
          · rw [ih.rest, k.rest]
      · split at h1
        · rename_i hn
          rw [Http.sameText_iff] at hn
          split at h1
          · rename_i hp
            have k := addOp_added hso (by decide) (coded_eq_ok.1 h1)
            have ih := headersToCoap_added k.sorted (fun y hy => hl y (List.mem_cons_of_mem _ hy)) h2
            refine ⟨?_, ?_, ?_, ?_, ?_, ?_, ih.sorted⟩
            · rw [ih.etag, k.vals, headerValues_cons_neg hne']; simp
            · rw [ih.accept, k.vals, headerValues_cons_pos hn]; simp
            · rw [headerValues_cons_pos hn]
              intro v hv
              rcases List.mem_cons.1 hv with rfl | hv
              · unfold Http.sameText at hp
                have e : (str "text/plain").map toLower = str "text/plain" := by decide
                rw [e] at hp
                exact beq_iff_eq.1 hp
              · exact ih.text v hv
            · intro j j1 j2 j3
              rw [ih.others j j1 j2 j3, k.vals, if_neg (Ne.symm j3), List.append_nil]
            · obtain ⟨ns, e⟩ := ih.age
              refine ⟨ns, ?_⟩
              rw [e, k.vals]; simp
            · rw [ih.rest, k.rest]
          · cases h1
        · rename_i hn
          cases h1
          have hna : ¬ Http.Named x "Accept" := fun h => hn ((Http.sameText_iff x "Accept").2 h)
          have ih := headersToCoap_added hso (fun y hy => hl y (List.mem_cons_of_mem _ hy)) h2
          refine ⟨?_, ?_, ?_, ih.others, ih.age, ih.rest, ih.sorted⟩
          · rw [ih.etag, headerValues_cons_neg hne']
          · rw [ih.accept, headerValues_cons_neg hna]
          · rw [headerValues_cons_neg hna]; exact ih.text

theorem addOp_ne_ub (env : Env) (m : Msg) (num : Nat) (s : Bytes) : addOp env m num s ≠ .ub := by
  unfold addOp; split <;> simp

theorem addParts_ne_ub {env : Env} {num : Nat} : ∀ (ps : List Bytes) (m : Msg), addParts env num m ps ≠ .ub
  | [], m => by simp [addParts]
  | p :: ps, m => by
    unfold addParts
    split
    · intro h
      rcases Out.bind_eq_ub.1 h with h | ⟨m', -, h⟩
      · exact addOp_ne_ub _ _ _ _ h
      · exact addParts_ne_ub ps m' h
    · exact addParts_ne_ub ps m

theorem uriToCoap_ne_ub (env : Env) (m : Msg) (s : Bytes) : uriToCoap env m s ≠ .ub := by
  intro h
  unfold uriToCoap at h
  rcases Out.bind_eq_ub.1 h with h | ⟨u, -, h⟩
  · exact Uri.C40_total _ _ _ h
  rcases Out.bind_eq_ub.1 h with h | ⟨_, -, h⟩
  · unfold checkUri at h
    split at h
    · cases h
    · cases h
    · split at h <;> cases h
  have hc : ∀ num m o, addComponent env num m o ≠ .ub := by
    intro num m o
    cases o with
    | none => simp [addComponent]
    | some s => exact addOp_ne_ub _ _ _ _
  rcases Out.bind_eq_ub.1 h with h | ⟨m1, -, h⟩
  · exact hc _ _ _ h
  rcases Out.bind_eq_ub.1 h with h | ⟨m2, -, h⟩
  · exact hc _ _ _ h
  rcases Out.bind_eq_ub.1 h with h | ⟨m3, -, h⟩
  · unfold addPath at h
    split at h
    · cases h
    · split at h
      · exact addParts_ne_ub _ _ h
      · cases h
  · unfold addQuery at h
    split at h
    · cases h
    · exact addParts_ne_ub _ _ h

theorem uriToCoap_sorted {env : Env} {m m' : Msg} {s : Bytes} (hs : Sorted m.ops) (h : uriToCoap env m s = .ok m') :
    Sorted m'.ops ∧ m' = { m with ops := m'.ops } := by
  have key : ∀ {num : Nat} {m m' : Msg} {s : Bytes}, Sorted m.ops → addOp env m num s = .ok m' →
      Sorted m'.ops ∧ m' = { m with ops := m'.ops } := by
    intro num m m' s hs h
    unfold addOp at h
    split at h
    · cases h
      refine ⟨?_, rfl⟩
      unfold Msg.addOp
      dsimp only
      rw [Msg.opListAdd_eq]
      exact Msg.ins_sorted _ _ hs
    · cases h
  have kc : ∀ {num : Nat} {m m' : Msg} {o : Option Bytes}, Sorted m.ops → addComponent env num m o = .ok m' →
      Sorted m'.ops ∧ m' = { m with ops := m'.ops } := by
    intro num m m' o hs h
    cases o with
    | none => cases h; exact ⟨hs, rfl⟩
    | some s => exact key hs h
  have kp : ∀ {num : Nat} (ps : List Bytes) {m m' : Msg}, Sorted m.ops → addParts env num m ps = .ok m' →
      Sorted m'.ops ∧ m' = { m with ops := m'.ops } := by
    intro num ps
    induction ps with
    | nil => intro m m' hs h; cases h; exact ⟨hs, rfl⟩
    | cons p ps ih =>
      intro m m' hs h
      unfold addParts at h
      split at h
      · obtain ⟨m1, h1, h2⟩ := Out.bind_eq_ok.1 h
        have k1 := key hs h1
        have k2 := ih k1.1 h2
        refine ⟨k2.1, ?_⟩
        rw [k2.2, k1.2]
      · exact ih hs h
  unfold uriToCoap at h
  obtain ⟨u, -, h⟩ := Out.bind_eq_ok.1 h
  obtain ⟨_, -, h⟩ := Out.bind_eq_ok.1 h
  obtain ⟨m1, e1, h⟩ := Out.bind_eq_ok.1 h
  obtain ⟨m2, e2, h⟩ := Out.bind_eq_ok.1 h
  obtain ⟨m3, e3, e4⟩ := Out.bind_eq_ok.1 h
  have k1 := kc hs e1
  have k2 := kc k1.1 e2
  have k3 : Sorted m3.ops ∧ m3 = { m2 with ops := m3.ops } := by
    unfold addPath at e3
    split at e3
    · cases e3; exact ⟨k2.1, rfl⟩
    · split at e3
      · exact kp _ k2.1 e3
      · cases e3
  have k4 : Sorted m'.ops ∧ m' = { m3 with ops := m'.ops } := by
    unfold addQuery at e4
    split at e4
    · cases e4; exact ⟨k3.1, rfl⟩
    · exact kp _ k3.1 e4
  refine ⟨k4.1, ?_⟩
  rw [k4.2, k3.2, k2.2, k1.2]

end FreeCoAP.Cross
