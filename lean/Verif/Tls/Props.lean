import Verif.Tls.Lemmas

/-!
# Properties of the cache of TLS sessions of the server
-/

namespace FreeCoAP.Tls

open FreeCoAP.DataBuf (slice)

/-! ## C79: sessions are found again -/

/-- C79: after every history of calls, a lookup finds for a session exactly what was stored last for it, if it was not deleted and less than the size of the
cache was stored since, and nothing otherwise. -/
def C79_statement : Prop :=
  ∀ (n : Nat) (c0 : Cache) (h : List Op) (k d : Bytes), create n true = .ok c0 → k ≠ [] → d ≠ [] →
    ∃ c, run c0 h = .ok c ∧ (get c k true true true = .ok (.data d) ↔ LatestIn n h k d)

theorem get_cases {n : Nat} {c : Cache} (hc : Inv n c) (k : Bytes) (mem : Bool) :
    cacheGet c k mem = .ok .nothing ∧ (∀ v ∈ views c, v.1 ≠ k) ∨
    ∃ j d, (views c)[j]? = some (k, d) ∧ (∀ (i : Nat) (v : Bytes × Bytes), i < j → (views c)[i]? = some v → v.1 ≠ k) ∧
      cacheGet c k mem = .ok (if d = [] then .nothing else if mem then .data d else .noMemory) := by
  unfold cacheGet
  rcases find_cases k c.elems 0 hc.elems with ⟨e, h⟩ | ⟨pre, x, post, h1, h2, h3, h4⟩
  · left
    rw [e]
    refine ⟨rfl, fun v hv => ?_⟩
    obtain ⟨y, hy, rfl⟩ := List.mem_map.1 hv
    exact h y hy
  · right
    have hx : x.OK := hc.elems x (by rw [h1]; simp)
    have hd := hx.data
    have hs := hx.dataSize
    refine ⟨pre.length, (view x).2, ?_, ?_, ?_⟩
    · unfold views
      rw [h1, List.map_append, List.map_cons, List.getElem?_append_right (by rw [List.length_map]; exact Nat.le_refl _), List.length_map,
        Nat.sub_self, List.getElem?_cons_zero, ← h3]
    · intro i v hi hv
      unfold views at hv
      rw [h1, List.map_append, List.getElem?_append_left (by rw [List.length_map]; exact hi), List.getElem?_map] at hv
      cases hp : pre[i]? with
      | none => rw [hp] at hv; cases hv
      | some y =>
        rw [hp] at hv
        cases hv
        exact h4 y (List.mem_of_getElem? hp)
    · rw [h2, Out.bind_ok]
      dsimp only
      have hlen : (view x).2.length = x.dataSize := by
        change (x.data.take x.dataSize).length = _
        rw [List.length_take]
        omega
      by_cases h0 : x.dataSize = 0
      · have : (view x).2 = [] := by
          rw [← List.length_eq_zero_iff, hlen, h0]
        rw [if_pos h0, if_pos this]
        rfl
      · have : (view x).2 ≠ [] := by
          intro e
          rw [e] at hlen
          exact h0 hlen.symm
        rw [if_neg h0, if_neg this]
        cases mem with
        | false => rfl
        | true =>
          rw [if_neg (show ¬ (true = false) by decide), if_pos rfl]
          unfold slice
          rw [if_pos (by omega), List.drop_zero]
          rfl

theorem get_eq (c : Cache) (k : Bytes) (mem : Bool) : get c k mem true true = cacheGet c k mem := by
  unfold get
  rw [if_neg (show ¬ (true = false) by decide)]
  cases cacheGet c k mem <;> rfl

/-- C79, no session of others: after every history, whatever a lookup finds was stored under exactly this key, and less than the size of the
cache was stored since. Nothing is read or written outside the arrays. -/
theorem C79_own_partial {n : Nat} {c0 : Cache} {mem : Bool} (h0 : create n mem = .ok c0) (h : List Op) :
    ∃ c, run c0 h = .ok c ∧ ∀ k m lg lp, ∃ g, get c k m lg lp = .ok g ∧ ∀ d, g = .data d → StoredIn n h k d := by
  obtain ⟨c, e, H, -⟩ := run_ind (create_holds h0) (fun _ _ => True) trivial (fun _ _ _ _ _ _ _ _ => trivial) _ h rfl
  refine ⟨c, e, fun k m lg lp => ?_⟩
  cases lg with
  | false => exact ⟨_, rfl, fun d h => (nomatch h)⟩
  | true =>
    unfold get
    rw [if_neg (show ¬ (true = false) by decide)]
    rcases get_cases H.inv k m with ⟨eg, -⟩ | ⟨j, d, hj, -, eg⟩
    · rw [eg]
      exact ⟨_, rfl, fun d h => (by cases lp <;> cases h)⟩
    · rw [eg]
      refine ⟨_, rfl, fun d' hg => ?_⟩
      cases lp with
      | false => cases hg
      | true =>
        rw [if_pos rfl] at hg
        by_cases hd : d = []
        · rw [if_pos hd] at hg; cases hg
        · rw [if_neg hd] at hg
          cases m with
          | false => cases hg
          | true =>
            rw [if_pos rfl] at hg
            cases hg
            rcases H.sound j _ hj with h1 | ⟨a, o, b, e1, h1, -, h2⟩
            · cases h1
              exact absurd rfl hd
            · exact ⟨a, o, b, e1, h1, h2⟩

/-- C79, sessions are found: something that was stored under the key is found if one was stored, less than the size of the cache was stored
since, and the key was not deleted since. -/
theorem C79_found_partial {n : Nat} {c0 : Cache} {mem : Bool} (h0 : create n mem = .ok c0) {h : List Op} {k d : Bytes} (hk : k ≠ [])
    (hl : ∃ a o b, h = a ++ o :: b ∧ o.Stores k d ∧ (∀ x ∈ b, ¬ x.Deletes k) ∧ stores b < n) :
    ∃ c d', run c0 h = .ok c ∧ StoredIn n h k d' ∧ get c k true true true = .ok (if d' = [] then .nothing else .data d') := by
  obtain ⟨c, e, H, -⟩ := run_ind (create_holds h0) (fun _ _ => True) trivial (fun _ _ _ _ _ _ _ _ => trivial) _ h rfl
  obtain ⟨a, o, b, e1, h1, h2, h3⟩ := hl
  have hv := H.complete a o b k d e1 h1 h3 h2
  rcases get_cases H.inv k true with ⟨eg, hn⟩ | ⟨j, d', hj, -, eg⟩
  · exact absurd rfl (hn _ (List.mem_of_getElem? hv))
  · refine ⟨c, d', e, ?_, by rw [get_eq, eg, if_pos rfl]⟩
    rcases H.sound j _ hj with h4 | ⟨a, o, b, e1, h4, -, h5⟩
    · cases h4
      exact absurd rfl hk
    · exact ⟨a, o, b, e1, h4, h5⟩

/-- With fresh keys, what the elements hold is the latest, and no key is held twice. -/
structure Keeps (n : Nat) (h : List Op) (c : Cache) : Prop where
  latest : ∀ (j : Nat) (v : Bytes × Bytes), (views c)[j]? = some v → v.1 ≠ [] → ∃ a o b, h = a ++ o :: b ∧ o.Stores v.1 v.2 ∧
    (∀ x ∈ b, (∀ d', ¬ x.Stores v.1 d') ∧ ¬ x.Deletes v.1) ∧ stores a % n = j ∧ stores b < n
  unique : ∀ (i j : Nat) (v w : Bytes × Bytes), (views c)[i]? = some v → (views c)[j]? = some w → v.1 ≠ [] → v.1 = w.1 → i = j

theorem LatestIn.latest {n : Nat} {h : List Op} {k d : Bytes} (hl : LatestIn n h k d) : Latest h k d := by
  obtain ⟨a, o, b, e, h1, h2, -⟩ := hl
  exact ⟨a, o, b, e, h1, h2⟩

theorem Latest.functional {h : List Op} {k d d' : Bytes} (h1 : Latest h k d) (h2 : Latest h k d') : d = d' := by
  obtain ⟨a, o, b, e, h3, h4⟩ := h1
  obtain ⟨a', o', b', e', h3', h4'⟩ := h2
  rw [e] at e'
  rcases List.append_eq_append_iff.1 e' with ⟨x, e1, e2⟩ | ⟨x, e1, e2⟩
  · cases x with
    | nil =>
      cases e2
      exact (h3.eq h3').2
    | cons y x =>
      cases e2
      exact absurd h3' ((h4 o' (by simp)).1 d')
  · cases x with
    | nil =>
      cases e2
      exact (h3.eq h3').2
    | cons y x =>
      cases e2
      exact absurd h3 ((h4' o (by simp)).1 d)

theorem Fresh.init {h : List Op} {o : Op} (hf : Fresh (h ++ [o])) : Fresh h := by
  intro a x b k d e
  exact hf a x (b ++ [o]) k d (by rw [e]; simp)

theorem keeps_step {n : Nat} {h : List Op} {c c' : Cache} {o : Op} (H : Holds n h c) (K : Keeps n h c) (D : Does c o c')
    (hf : Fresh (h ++ [o])) : Keeps n (h ++ [o]) c' := by
  have hlen := views_length H.inv
  have hil := H.inv.index
  cases D with
  | stores hs h1 hv hx =>
    rename_i k d
    have hfresh : ∀ (j : Nat) (v : Bytes × Bytes), (views c)[j]? = some v → v.1 ≠ [] → v.1 ≠ k := by
      rintro j v hj hne rfl
      obtain ⟨a, x, b, e, h2, h3, -, -⟩ := K.latest j v hj hne
      exact hf h o [] v.1 d rfl hs v.2 ⟨a, x, b, e, h2, h3⟩
    have cases_ : ∀ (j : Nat) (v : Bytes × Bytes), (views c')[j]? = some v → (j = c.index ∧ v = (k, d)) ∨ (j ≠ c.index ∧ (views c)[j]? = some v) := by
      intro j v hj
      rw [hv, List.getElem?_set] at hj
      by_cases hji : c.index = j
      · rw [if_pos hji, if_pos (by rw [hlen]; exact hil)] at hj
        cases hj
        exact .inl ⟨hji.symm, rfl⟩
      · rw [if_neg hji] at hj
        exact .inr ⟨fun e => hji e.symm, hj⟩
    refine ⟨?_, ?_⟩
    · intro j v hj hne
      rcases cases_ j v hj with ⟨rfl, rfl⟩ | ⟨hji, hj⟩
      · exact ⟨h, o, [], rfl, hs, by simp, H.index.symm, H.inv.pos⟩
      · obtain ⟨a, x, b, e, h2, h3, h4, h5⟩ := K.latest j v hj hne
        refine ⟨a, x, b ++ [o], by rw [e]; simp, h2, ?_, h4, ?_⟩
        · intro y hy
          rcases List.mem_append.1 hy with hy | hy
          · exact h3 y hy
          · rw [List.mem_singleton] at hy
            subst hy
            exact ⟨fun d' hd' => hfresh j v hj hne (hs.eq hd').1.symm, hs.not_deletes⟩
        · rw [stores_append, h1]
          have hsh : stores h = stores a + (1 + stores b) := by
            rw [e, stores_append, show x :: b = [x] ++ b from rfl, stores_append, stores_of_stores h2]
          rcases Nat.lt_or_ge (stores b + 1) n with h6 | h6
          · exact h6
          · exfalso
            apply hji
            rw [H.index, hsh, show 1 + stores b = n by omega, Nat.add_mod_right]
            exact h4.symm
    · intro i j v w hi hj hne heq
      rcases cases_ i v hi with ⟨rfl, rfl⟩ | ⟨hi', hi⟩
      · rcases cases_ j w hj with ⟨rfl, rfl⟩ | ⟨hj', hj⟩
        · rfl
        · exact absurd heq.symm (hfresh j w hj (heq ▸ hne))
      · rcases cases_ j w hj with ⟨rfl, rfl⟩ | ⟨hj', hj⟩
        · exact absurd heq (hfresh i v hi hne)
        · exact K.unique i j v w hi hj hne heq
  | deletes hd hfnd hv hx =>
    rename_i k i d
    have h0 := stores_of_deletes hd
    have cases_ : ∀ (j : Nat) (v : Bytes × Bytes), (views c')[j]? = some v → v.1 ≠ [] → j ≠ i ∧ (views c)[j]? = some v := by
      intro j v hj hne
      rw [hv, List.getElem?_set] at hj
      by_cases hji : i = j
      · rw [if_pos hji] at hj
        split at hj
        · cases hj
          exact absurd rfl hne
        · cases hj
      · rw [if_neg hji] at hj
        exact ⟨fun e => hji e.symm, hj⟩
    refine ⟨?_, ?_⟩
    · intro j v hj hne
      obtain ⟨hji, hj⟩ := cases_ j v hj hne
      obtain ⟨a, x, b, e, h2, h3, h4, h5⟩ := K.latest j v hj hne
      refine ⟨a, x, b ++ [o], by rw [e]; simp, h2, ?_, h4, by rw [stores_append, h0]; exact h5⟩
      intro y hy
      rcases List.mem_append.1 hy with hy | hy
      · exact h3 y hy
      · rw [List.mem_singleton] at hy
        subst hy
        refine ⟨fun d' hd' => hd'.not_deletes hd, fun hd' => ?_⟩
        exact hji (K.unique j i v (k, d) hj hfnd hne (hd'.eq hd))
    · intro i' j v w hi hj hne heq
      obtain ⟨-, hi⟩ := cases_ i' v hi hne
      obtain ⟨-, hj⟩ := cases_ j w hj (heq ▸ hne)
      exact K.unique i' j v w hi hj hne heq
  | misses hd hfnd hc =>
    have h0 := stores_of_deletes hd
    subst hc
    refine ⟨?_, K.unique⟩
    intro j v hj hne
    obtain ⟨a, x, b, e, h2, h3, h4, h5⟩ := K.latest j v hj hne
    refine ⟨a, x, b ++ [o], by rw [e]; simp, h2, ?_, h4, by rw [stores_append, h0]; exact h5⟩
    intro y hy
    rcases List.mem_append.1 hy with hy | hy
    · exact h3 y hy
    · rw [List.mem_singleton] at hy
      subst hy
      refine ⟨fun d' hd' => hd'.not_deletes hd, fun hd' => ?_⟩
      exact hfnd v (List.mem_of_getElem? hj) (hd'.eq hd)
  | fails hs hd h0 hc =>
    subst hc
    refine ⟨?_, K.unique⟩
    intro j v hj hne
    obtain ⟨a, x, b, e, h2, h3, h4, h5⟩ := K.latest j v hj hne
    refine ⟨a, x, b ++ [o], by rw [e]; simp, h2, ?_, h4, by rw [stores_append, h0]; exact h5⟩
    intro y hy
    rcases List.mem_append.1 hy with hy | hy
    · exact h3 y hy
    · rw [List.mem_singleton] at hy
      subst hy
      exact ⟨fun d' => hs _ _, hd _⟩

theorem create_keeps {n : Nat} {c : Cache} {mem : Bool} (h : create n mem = .ok c) : Keeps n [] c := by
  have hz : ∀ (j : Nat) (v : Bytes × Bytes), (views c)[j]? = some v → v = ([], []) := by
    intro j v hj
    rcases (create_holds h).sound j v hj with h1 | ⟨a, o, b, e, -⟩
    · exact h1
    · exact absurd (congrArg List.length e) (by simp)
  refine ⟨fun j v hj hne => ?_, fun i j v w hi hj hne => ?_⟩
  · rw [hz j v hj] at hne
    exact absurd rfl hne
  · rw [hz i v hi] at hne
    exact absurd rfl hne

/-- C79 for histories in which nothing is stored for a session for which there is something already, as with the session identifiers of TLS, which
are new for every session. -/
theorem C79_latest_partial {n : Nat} {c0 : Cache} {mem : Bool} (h0 : create n mem = .ok c0) {h : List Op} (hf : Fresh h) {k d : Bytes}
    (hk : k ≠ []) (hd : d ≠ []) :
    ∃ c, run c0 h = .ok c ∧ (get c k true true true = .ok (.data d) ↔ LatestIn n h k d) := by
  obtain ⟨c, e, H, K⟩ := run_ind (create_holds h0) (fun h c => Fresh h → Keeps n h c) (fun _ => create_keeps h0)
    (fun h c o c' H K D _ hf => keeps_step H (K hf.init) D hf) _ h rfl
  replace K := K hf
  refine ⟨c, e, ?_⟩
  rw [get_eq]
  constructor
  · intro hg
    rcases get_cases H.inv k true with ⟨eg, -⟩ | ⟨j, d', hj, -, eg⟩
    · rw [eg] at hg; cases hg
    · rw [eg] at hg
      by_cases hd' : d' = []
      · rw [if_pos hd'] at hg; cases hg
      · rw [if_neg hd', if_pos rfl] at hg
        cases hg
        obtain ⟨a, o, b, e1, h1, h2, -, h3⟩ := K.latest j _ hj hk
        exact ⟨a, o, b, e1, h1, h2, h3⟩
  · rintro ⟨a, o, b, e1, h1, h2, h3⟩
    have hv := H.complete a o b k d e1 h1 h3 (fun x hx => (h2 x hx).2)
    rcases get_cases H.inv k true with ⟨eg, hn⟩ | ⟨j, d', hj, -, eg⟩
    · exact absurd rfl (hn _ (List.mem_of_getElem? hv))
    · have := K.unique _ _ _ _ hv hj hk rfl
      rw [this, hj] at hv
      cases hv
      rw [eg, if_neg hd, if_pos rfl]

/-- Two sessions, one of which is deleted. -/
def exOps : List Op := [.set [1] [7, 8] true true, .set [2] [9] true true, .delete [1] true true]

/-- The hypotheses are met: the keys are fresh. -/
example : Fresh exOps ∧ LatestIn 50 exOps [2] [9] := by
  refine ⟨?_, [.set [1] [7, 8] true true], .set [2] [9] true true, [.delete [1] true true], rfl, ⟨⟨true, rfl⟩, by decide, by decide⟩, ?_, by decide⟩
  · rintro a o b k d e hs d' ⟨a', o', b', rfl, hs', -⟩
    obtain ⟨⟨lp, rfl⟩, -⟩ := hs
    obtain ⟨⟨lp', rfl⟩, -⟩ := hs'
    unfold exOps at e
    cases a' with
    | nil =>
      injection e with e1 e2
      injection e1 with e3
      subst e3
      cases b' with
      | nil => simp at e2
      | cons x b' =>
        injection e2 with e1 e2
        cases b' with
        | nil => simp at e2
        | cons y b' => simp at e2
    | cons x a' =>
      injection e with e1 e2
      cases a' with
      | nil =>
        injection e2 with e1 e2
        cases b' with
        | nil => simp at e2
        | cons y b' => simp at e2
      | cons y a' =>
        injection e2 with e1 e2
        have := congrArg List.length e2
        simp at this
        omega
  · intro x hx
    rw [List.mem_singleton] at hx
    subst hx
    refine ⟨fun d' => ?_, ?_⟩
    · rintro ⟨⟨_, h⟩, -⟩
      cases h
    · rintro ⟨_, h⟩
      cases h

/-- The data of a session that was stored twice. -/
def exTwice : List Op := [.set [1] [7] true true, .set [1] [8] true true]

/-- C79 fails: of data that were stored twice for a session, the old ones are found. -/
theorem C79_violated : ¬ C79_statement := by
  intro h
  obtain ⟨c, e, hi⟩ := h 50 _ exTwice [1] [7] rfl (by decide) (by decide)
  have e2 : (match run ⟨List.replicate 50 Elem.zero, 0⟩ exTwice with
      | .ok c => decide (get c [1] true true true = .ok (.data [7]))
      | _ => false) = true := by decide +kernel
  rw [e] at e2
  obtain ⟨a, o, b, e3, h1, h2, -⟩ := hi.1 (of_decide_eq_true e2)
  obtain ⟨⟨lp, rfl⟩, -⟩ := h1
  unfold exTwice at e3
  cases a with
  | nil =>
    injection e3 with e4 e5
    exact (h2 (.set [1] [8] true true) (by rw [← e5]; simp)).1 [8] ⟨⟨true, rfl⟩, by decide, by decide⟩
  | cons x a =>
    injection e3 with e4 e5
    cases a with
    | nil =>
      injection e5 with e6
      cases e6
    | cons y a => simp at e5

/-- Also after it was deleted, a session that was stored twice is found. -/
theorem C79_violated_delete : (match run ⟨List.replicate 50 Elem.zero, 0⟩ (exTwice ++ [.delete [1] true true]) with
      | .ok c => decide (get c [1] true true true = .ok (.data [8]))
      | _ => false) = true := by
  decide +kernel

end FreeCoAP.Tls
