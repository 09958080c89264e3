import Verif.Tls.Spec

/-!
# Lemmas about the cache of the server
-/

namespace FreeCoAP.Tls

open FreeCoAP.DataBuf (copyTo slice)

/-- What an element holds. -/
def view (e : Elem) : Bytes × Bytes := (e.id.take e.idSize, e.data.take e.dataSize)

/-- The arrays have their lengths. -/
structure Elem.OK (e : Elem) : Prop where
  id : e.id.length = 32
  data : e.data.length = 2048
  idSize : e.idSize ≤ 32
  dataSize : e.dataSize ≤ 2048

/-- A cache of `n` elements. -/
structure Inv (n : Nat) (c : Cache) : Prop where
  pos : 0 < n
  length : c.elems.length = n
  index : c.index < n
  elems : ∀ e ∈ c.elems, e.OK

theorem zero_ok : Elem.zero.OK := by
  refine ⟨?_, ?_, Nat.zero_le _, Nat.zero_le _⟩ <;> unfold Elem.zero <;> simp only [List.length_replicate] <;> rfl

theorem view_zero : view Elem.zero = ([], []) := rfl

theorem copy_ok {block src : Bytes} (h : src.length ≤ block.length) :
    ∃ b, copyTo block 0 src = .ok b ∧ b.length = block.length ∧ b.take src.length = src := by
  refine ⟨_, if_pos (by omega), ?_, ?_⟩
  · simp only [List.take_zero, List.nil_append, List.length_append, List.length_drop]
    omega
  · simp

theorem hit_ok {e : Elem} (h : e.OK) (key : Bytes) : hit e key = .ok (decide ((view e).1 = key)) := by
  unfold hit
  have h1 := h.id
  have h2 := h.idSize
  have hl : (e.id.take e.idSize).length = e.idSize := by rw [List.length_take]; omega
  by_cases hk : key.length = e.idSize
  · rw [if_pos hk]
    unfold slice
    rw [if_pos (by omega), List.drop_zero, Out.bind_ok, hk]
    rfl
  · rw [if_neg hk, decide_eq_false]
    intro e2
    have := congrArg List.length e2
    change (e.id.take e.idSize).length = _ at this
    omega

theorem find_cases (key : Bytes) : ∀ (es : List Elem) (i : Nat), (∀ e ∈ es, e.OK) →
    find key es i = .ok none ∧ (∀ e ∈ es, (view e).1 ≠ key) ∨
    ∃ pre e post, es = pre ++ e :: post ∧ find key es i = .ok (some (i + pre.length, e)) ∧ (view e).1 = key ∧ ∀ x ∈ pre, (view x).1 ≠ key
  | [], i, _ => .inl ⟨rfl, by simp⟩
  | e :: es, i, h => by
    unfold find
    rw [hit_ok (h e (List.mem_cons_self ..)), Out.bind_ok]
    by_cases hv : (view e).1 = key
    · right
      refine ⟨[], e, es, rfl, ?_, hv, by simp⟩
      rw [if_pos (by rw [decide_eq_true_iff]; exact hv)]
      rfl
    · rw [if_neg (by rw [decide_eq_true_iff]; exact hv)]
      rcases find_cases key es (i + 1) (fun e he => h e (List.mem_cons_of_mem _ he)) with ⟨h1, h2⟩ | ⟨pre, x, post, h1, h2, h3, h4⟩
      · refine .inl ⟨h1, fun x hx => ?_⟩
        rcases List.mem_cons.1 hx with rfl | hx
        · exact hv
        · exact h2 x hx
      · refine .inr ⟨e :: pre, x, post, by rw [h1]; rfl, ?_, h3, fun y hy => ?_⟩
        · rw [h2, List.length_cons, Nat.add_assoc, Nat.add_comm 1]
        · rcases List.mem_cons.1 hy with rfl | hy
          · exact hv
          · exact h4 y hy

/-- What the cache holds. -/
def views (c : Cache) : List (Bytes × Bytes) := c.elems.map view

/-- What a call does. -/
inductive Does (c : Cache) (o : Op) (c' : Cache) : Prop where
  | stores {k d} : o.Stores k d → stores [o] = 1 → views c' = (views c).set c.index (k, d) → c'.index = (c.index + 1) % c.elems.length → Does c o c'
  | deletes {k i d} : o.Deletes k → (views c)[i]? = some (k, d) → views c' = (views c).set i ([], []) → c'.index = c.index → Does c o c'
  | misses {k} : o.Deletes k → (∀ v ∈ views c, v.1 ≠ k) → c' = c → Does c o c'
  | fails : (∀ k d, ¬ o.Stores k d) → (∀ k, ¬ o.Deletes k) → stores [o] = 0 → c' = c → Does c o c'

theorem set_ok {n : Nat} {c : Cache} (hc : Inv n c) {k d : Bytes} (hk : k.length ≤ 32) (hd : d.length ≤ 2048) :
    ∃ c', cacheSet c k d = .ok c' ∧ Inv n c' ∧ views c' = (views c).set c.index (k, d) ∧ c'.index = (c.index + 1) % c.elems.length := by
  have hi : c.index < c.elems.length := by rw [hc.length]; exact hc.index
  have he := hc.elems _ (List.getElem_mem hi)
  obtain ⟨a, e1, l1, t1⟩ := copy_ok (block := c.elems[c.index].id) (src := k) (by rw [he.id]; exact hk)
  obtain ⟨b, e2, l2, t2⟩ := copy_ok (block := c.elems[c.index].data) (src := d) (by rw [he.data]; exact hd)
  refine ⟨⟨c.elems.set c.index ⟨a, b, k.length, d.length⟩, (c.index + 1) % c.elems.length⟩, ?_, ⟨hc.pos, ?_, ?_, ?_⟩, ?_, rfl⟩
  · unfold cacheSet
    rw [if_neg (by unfold ID DATA; omega), List.getElem?_eq_getElem hi]
    dsimp only
    rw [e1, Out.bind_ok, e2, Out.bind_ok]
    rfl
  · rw [List.length_set]; exact hc.length
  · change (c.index + 1) % c.elems.length < n
    rw [hc.length]
    exact Nat.mod_lt _ hc.pos
  · intro e hm
    rcases List.mem_or_eq_of_mem_set hm with hm | rfl
    · exact hc.elems e hm
    · exact ⟨by rw [l1]; exact he.id, by rw [l2]; exact he.data, hk, hd⟩
  · unfold views
    rw [List.map_set]
    congr 1
    unfold view
    rw [t1, t2]

theorem delete_ok {n : Nat} {c : Cache} (hc : Inv n c) (k : Bytes) :
    cacheDelete c k = .err .EINVAL ∧ (∀ v ∈ views c, v.1 ≠ k) ∨
    ∃ c' i d, cacheDelete c k = .ok c' ∧ Inv n c' ∧ (views c)[i]? = some (k, d) ∧ views c' = (views c).set i ([], []) ∧ c'.index = c.index := by
  unfold cacheDelete
  rcases find_cases k c.elems 0 hc.elems with ⟨e, h⟩ | ⟨pre, x, post, h1, h2, h3, h4⟩
  · left
    rw [e]
    refine ⟨rfl, fun v hv => ?_⟩
    obtain ⟨y, hy, rfl⟩ := List.mem_map.1 hv
    exact h y hy
  · right
    rw [h2]
    refine ⟨{ c with elems := c.elems.set (0 + pre.length) Elem.zero }, pre.length, (view x).2, rfl, ⟨hc.pos, ?_, hc.index, ?_⟩, ?_, ?_, rfl⟩
    · rw [List.length_set]; exact hc.length
    · intro e hm
      rcases List.mem_or_eq_of_mem_set hm with hm | rfl
      · exact hc.elems e hm
      · exact zero_ok
    · unfold views
      rw [h1, List.map_append, List.map_cons, List.getElem?_append_right (by rw [List.length_map]; exact Nat.le_refl _), List.length_map,
        Nat.sub_self, List.getElem?_cons_zero, ← h3]
    · unfold views
      rw [List.map_set, view_zero, Nat.zero_add]

theorem step_does {n : Nat} {c : Cache} (hc : Inv n c) (o : Op) : ∃ c' st, step c o = .ok (c', st) ∧ Inv n c' ∧ Does c o c' := by
  cases o with
  | set k d lg lp =>
    cases lg with
    | false =>
      refine ⟨c, _, rfl, hc, .fails ?_ ?_ rfl rfl⟩
      · rintro k' d' ⟨⟨_, h⟩, -⟩
        cases h
      · rintro k' ⟨_, h⟩
        cases h
    | true =>
      by_cases h : k.length ≤ 32 ∧ d.length ≤ 2048
      · obtain ⟨c', e, h1, h2, h3⟩ := set_ok hc h.1 h.2
        refine ⟨c', if lp then none else some .EIO, ?_, h1, .stores (k := k) (d := d) ⟨⟨lp, rfl⟩, h⟩ ?_ h2 h3⟩
        · unfold step
          dsimp only
          rw [if_neg (show ¬ (true = false) by decide), e]
        · unfold stores
          rw [if_pos ⟨rfl, h⟩]
          rfl
      · refine ⟨c, some (if lp then .EINVAL else .EIO), ?_, hc, .fails ?_ ?_ ?_ rfl⟩
        · unfold step
          dsimp only
          rw [if_neg (show ¬ (true = false) by decide)]
          have : cacheSet c k d = .err .EINVAL := if_pos (by unfold ID DATA; omega)
          rw [this]
        · rintro k' d' ⟨⟨_, h'⟩, h2⟩
          cases h'
          exact h h2
        · rintro k' ⟨_, h⟩
          cases h
        · unfold stores
          rw [if_neg (fun h' => h h'.2)]
          rfl
  | delete k lg lp =>
    cases lg with
    | false =>
      refine ⟨c, _, rfl, hc, .fails ?_ ?_ rfl rfl⟩
      · rintro k' d' ⟨⟨_, h⟩, -⟩
        cases h
      · rintro k' ⟨_, h⟩
        cases h
    | true =>
      rcases delete_ok hc k with ⟨e, h⟩ | ⟨c', i, d, e, h1, h2, h3, h4⟩
      · refine ⟨c, some (if lp then .EINVAL else .EIO), ?_, hc, .misses ⟨lp, rfl⟩ h rfl⟩
        unfold step
        dsimp only
        rw [if_neg (show ¬ (true = false) by decide), e]
      · refine ⟨c', if lp then none else some .EIO, ?_, h1, .deletes ⟨lp, rfl⟩ h2 h3 h4⟩
        unfold step
        dsimp only
        rw [if_neg (show ¬ (true = false) by decide), e]

theorem stores_append : ∀ a b : List Op, stores (a ++ b) = stores a + stores b
  | [], b => by simp [stores]
  | .set k d lg lp :: a, b => by
    rw [List.cons_append, stores, stores, stores_append a b, Nat.add_assoc]
  | .delete k lg lp :: a, b => by
    rw [List.cons_append, stores, stores]
    exact stores_append a b

theorem stores_of_stores {o : Op} {k d : Bytes} (h : o.Stores k d) : stores [o] = 1 := by
  obtain ⟨⟨lp, rfl⟩, h⟩ := h
  unfold stores
  rw [if_pos ⟨rfl, h⟩]
  rfl

theorem stores_of_deletes {o : Op} {k : Bytes} (h : o.Deletes k) : stores [o] = 0 := by
  obtain ⟨lp, rfl⟩ := h
  rfl

theorem Op.Stores.eq {o : Op} {k d k' d' : Bytes} (h : o.Stores k d) (h' : o.Stores k' d') : k = k' ∧ d = d' := by
  obtain ⟨⟨lp, rfl⟩, -⟩ := h
  obtain ⟨⟨lp', e⟩, -⟩ := h'
  cases e
  exact ⟨rfl, rfl⟩

theorem Op.Stores.not_deletes {o : Op} {k d k' : Bytes} (h : o.Stores k d) : ¬ o.Deletes k' := by
  obtain ⟨⟨lp, rfl⟩, -⟩ := h
  rintro ⟨_, e⟩
  cases e

theorem Op.Deletes.eq {o : Op} {k k' : Bytes} (h : o.Deletes k) (h' : o.Deletes k') : k = k' := by
  obtain ⟨lp, rfl⟩ := h
  obtain ⟨lp', e⟩ := h'
  cases e
  rfl

theorem run_append : ∀ (a b : List Op) (c : Cache), run c (a ++ b) = run c a >>= fun c => run c b
  | [], b, c => rfl
  | o :: a, b, c => by
    rw [List.cons_append, run, run]
    cases step c o with
    | ok r => rw [Out.bind_ok, Out.bind_ok, run_append a b r.1]
    | err e => rfl
    | ub => rfl

/-- A history ends with a call or is empty. -/
theorem snoc_cases {α} (l : List α) : l = [] ∨ ∃ a x, l = a ++ [x] := by
  rcases List.eq_nil_or_concat l with h | ⟨a, x, h⟩
  · exact .inl h
  · exact .inr ⟨a, x, by rw [h, List.concat_eq_append]⟩

/-- Decompositions of a longer history. -/
theorem split_snoc {α} {h a b : List α} {o x : α} (e : h ++ [x] = a ++ o :: b) :
    (b = [] ∧ o = x ∧ a = h) ∨ ∃ b', b = b' ++ [x] ∧ h = a ++ o :: b' := by
  rcases snoc_cases b with rfl | ⟨b', y, rfl⟩
  · have := List.append_inj' e rfl
    cases this.2
    exact .inl ⟨rfl, rfl, this.1.symm⟩
  · rw [show a ++ o :: (b' ++ [y]) = (a ++ o :: b') ++ [y] by simp] at e
    have := List.append_inj' e rfl
    cases this.2
    exact .inr ⟨b', rfl, this.1⟩

/-- What the elements hold after a history: `j` is the place of an element. -/
structure Holds (n : Nat) (h : List Op) (c : Cache) : Prop where
  inv : Inv n c
  index : c.index = stores h % n
  /-- Nothing else than what was stored. -/
  sound : ∀ j v, (views c)[j]? = some v → v = ([], []) ∨ ∃ a o b, h = a ++ o :: b ∧ o.Stores v.1 v.2 ∧ stores a % n = j ∧ stores b < n
  /-- Everything that was stored, until it is overwritten. -/
  complete : ∀ a o b k d, h = a ++ o :: b → o.Stores k d → stores b < n → (∀ x ∈ b, ¬ x.Deletes k) → (views c)[stores a % n]? = some (k, d)

theorem views_length {n : Nat} {c : Cache} (h : Inv n c) : (views c).length = n := by
  unfold views
  rw [List.length_map, h.length]

theorem mod_ne {n x m : Nat} (h0 : 0 < m) (h : m < n) : x % n ≠ (x + m) % n := by
  intro e
  have h1 := Nat.div_add_mod x n
  have h2 := Nat.div_add_mod (x + m) n
  rw [← e] at h2
  have h3 : n * ((x + m) / n) = n * (x / n) + m := by omega
  have h4 : n * (x / n) < n * ((x + m) / n) := by omega
  have h5 : x / n < (x + m) / n := Nat.lt_of_mul_lt_mul_left h4
  have h6 : n * (x / n + 1) ≤ n * ((x + m) / n) := Nat.mul_le_mul_left _ h5
  rw [Nat.mul_add, Nat.mul_one] at h6
  omega

theorem holds_step {n : Nat} {h : List Op} {c c' : Cache} {o : Op} (H : Holds n h c) (hi : Inv n c') (D : Does c o c') : Holds n (h ++ [o]) c' := by
  have hpos := H.inv.pos
  have hlen := views_length H.inv
  have hil := H.inv.index
  -- an old decomposition in the longer history
  have later : ∀ {v : Bytes × Bytes} {j : Nat}, stores [o] = 0 → (v = ([], []) ∨ ∃ a x b, h = a ++ x :: b ∧ x.Stores v.1 v.2 ∧ stores a % n = j ∧ stores b < n) →
      v = ([], []) ∨ ∃ a x b, h ++ [o] = a ++ x :: b ∧ x.Stores v.1 v.2 ∧ stores a % n = j ∧ stores b < n := by
    rintro v j h0 (hv | ⟨a, x, b, e, h1, h2, h3⟩)
    · exact .inl hv
    · refine .inr ⟨a, x, b ++ [o], by rw [e]; simp, h1, h2, ?_⟩
      rw [stores_append, h0]
      exact h3
  cases D with
  | stores hs h1 hv hx =>
    rename_i k d
    refine ⟨hi, ?_, ?_, ?_⟩
    · rw [hx, stores_append, h1, H.inv.length, H.index, Nat.mod_add_mod]
    · intro j v hj
      rw [hv, List.getElem?_set] at hj
      split at hj
      · rename_i hji
        rw [if_pos (by rw [hlen]; exact hil)] at hj
        cases hj
        exact .inr ⟨h, o, [], rfl, hs, by rw [← H.index, hji], hpos⟩
      · rename_i hji
        rcases H.sound j v hj with h2 | ⟨a, x, b, e, h2, h3, h4⟩
        · exact .inl h2
        · refine .inr ⟨a, x, b ++ [o], by rw [e]; simp, h2, h3, ?_⟩
          rw [stores_append, h1]
          have hsh : stores h = stores a + (1 + stores b) := by
            rw [e, stores_append, show x :: b = [x] ++ b from rfl, stores_append, stores_of_stores h2]
          rcases Nat.lt_or_ge (stores b + 1) n with h5 | h5
          · exact h5
          · exfalso
            apply hji
            rw [H.index, hsh, show 1 + stores b = n by omega, Nat.add_mod_right]
            exact h3
    · intro a x b k' d' e hs' hb hnd
      rw [hv, List.getElem?_set]
      rcases split_snoc e with ⟨rfl, rfl, rfl⟩ | ⟨b', rfl, e2⟩
      · obtain ⟨rfl, rfl⟩ := hs.eq hs'
        rw [H.index, if_pos rfl, if_pos (by rw [hlen]; exact Nat.mod_lt _ hpos)]
      · rw [stores_append, h1] at hb
        have hsh : stores h = stores a + (1 + stores b') := by
          rw [e2, stores_append, show x :: b' = [x] ++ b' from rfl, stores_append, stores_of_stores hs']
        rw [if_neg]
        · exact H.complete a x b' k' d' e2 hs' (by omega) (fun y hy => hnd y (List.mem_append_left _ hy))
        · rw [H.index, hsh]
          exact fun e => mod_ne (m := 1 + stores b') (by omega) (by omega) e.symm
  | deletes hd hf hv hx =>
    rename_i k i d
    have h0 := stores_of_deletes hd
    refine ⟨hi, ?_, ?_, ?_⟩
    · rw [hx, stores_append, h0, Nat.add_zero, H.index]
    · intro j v hj
      rw [hv, List.getElem?_set] at hj
      split at hj
      · split at hj
        · cases hj
          exact .inl rfl
        · cases hj
      · exact later h0 (H.sound j v hj)
    · intro a x b k' d' e hs' hb hnd
      rw [hv, List.getElem?_set]
      rcases split_snoc e with ⟨rfl, rfl, rfl⟩ | ⟨b', rfl, e2⟩
      · exact absurd hd hs'.not_deletes
      · rw [stores_append, h0] at hb
        have := H.complete a x b' k' d' e2 hs' hb (fun y hy => hnd y (List.mem_append_left _ hy))
        rw [if_neg]
        · exact this
        · rintro rfl
          rw [this] at hf
          cases hf
          exact hnd o (by simp) hd
  | misses hd hf hc =>
    have h0 := stores_of_deletes hd
    subst hc
    refine ⟨hi, by rw [stores_append, h0]; exact H.index, fun j v hj => later h0 (H.sound j v hj), ?_⟩
    intro a x b k' d' e hs' hb hnd
    rcases split_snoc e with ⟨rfl, rfl, rfl⟩ | ⟨b', rfl, e2⟩
    · exact absurd hd hs'.not_deletes
    · rw [stores_append, h0] at hb
      exact H.complete a x b' k' d' e2 hs' hb (fun y hy => hnd y (List.mem_append_left _ hy))
  | fails hs hd h0 hc =>
    subst hc
    refine ⟨hi, by rw [stores_append, h0]; exact H.index, fun j v hj => later h0 (H.sound j v hj), ?_⟩
    intro a x b k' d' e hs' hb hnd
    rcases split_snoc e with ⟨rfl, rfl, rfl⟩ | ⟨b', rfl, e2⟩
    · exact absurd hs' (hs _ _)
    · rw [stores_append, h0] at hb
      exact H.complete a x b' k' d' e2 hs' hb (fun y hy => hnd y (List.mem_append_left _ hy))

theorem create_holds {n : Nat} {c : Cache} {mem : Bool} (h : create n mem = .ok c) : Holds n [] c := by
  unfold create at h
  by_cases hn : n = 0
  · rw [if_pos hn] at h; cases h
  · rw [if_neg hn] at h
    cases mem with
    | false => cases h
    | true =>
      cases h
      refine ⟨⟨by omega, List.length_replicate, by change 0 < n; omega, ?_⟩, (Nat.zero_mod _).symm, ?_, ?_⟩
      · intro e he
        rw [List.eq_of_mem_replicate he]
        exact zero_ok
      · intro j v hj
        unfold views at hj
        rw [List.map_replicate, List.getElem?_replicate, view_zero] at hj
        split at hj
        · cases hj
          exact .inl rfl
        · cases hj
      · intro a o b k d e
        exact absurd (congrArg List.length e) (by simp)

/-- After a history, with what was proved of the one before its last call. -/
theorem run_ind {n : Nat} {c0 : Cache} (h0 : Holds n [] c0) (P : List Op → Cache → Prop) (hP0 : P [] c0)
    (hP : ∀ h c o c', Holds n h c → P h c → Does c o c' → Holds n (h ++ [o]) c' → P (h ++ [o]) c') :
    ∀ (m : Nat) (h : List Op), h.length = m → ∃ c, run c0 h = .ok c ∧ Holds n h c ∧ P h c
  | 0, h, hl => by
    rw [List.length_eq_zero_iff] at hl
    subst hl
    exact ⟨c0, rfl, h0, hP0⟩
  | m + 1, h, hl => by
    rcases snoc_cases h with rfl | ⟨a, o, rfl⟩
    · cases hl
    · rw [List.length_append] at hl
      obtain ⟨c, e, hh, hp⟩ := run_ind h0 P hP0 hP m a (by simpa using hl)
      obtain ⟨c', st, e2, hi, D⟩ := step_does hh.inv o
      have := holds_step hh hi D
      refine ⟨c', ?_, this, hP _ _ _ _ hh hp D this⟩
      rw [run_append, e, Out.bind_ok]
      unfold run
      rw [e2]
      rfl

end FreeCoAP.Tls
