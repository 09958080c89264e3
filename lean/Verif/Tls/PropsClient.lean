import Verif.Tls.LemmasClient

/-!
# Properties of the cache of the client
-/

namespace FreeCoAP.Tls

open FreeCoAP.DataBuf (slice)

theorem read_ok {A n : Nat} {c : CCache} (hc : CInv A n c) {i : Nat} {a d : Bytes} (h : (cviews c)[i]? = some (a, d)) :
    cread c (some (i, d.length)) = .ok d := by
  unfold cviews at h
  rw [List.getElem?_map] at h
  unfold cread
  dsimp only
  cases he : c.elems[i]? with
  | none => rw [he] at h; cases h
  | some e =>
    rw [he] at h
    have hd : d = e.data.take e.size := by
      have := Option.some.inj h
      exact (congrArg Prod.snd this).symm
    have ho := hc.elems e (List.mem_of_getElem? he)
    have h1 := ho.data
    have h2 := ho.size
    have hl : d.length = e.size := by rw [hd, List.length_take]; omega
    dsimp only
    rw [slice, if_pos (by omega), List.drop_zero, hl, ← hd]

theorem get_queue {A n : Nat} {c : CCache} {q : List (Bytes × Bytes)} (hc : CInv A n c) (hq : Queue n q c) {addr : Bytes} (ha : addr ≠ []) :
    cget c addr true true = .ok none ∧ addr ∉ q.map Prod.fst ∨
    ∃ i d, cget c addr true true = .ok (some (i, d.length)) ∧ (addr, d) ∈ q ∧ (cviews c)[i]? = some (addr, d) := by
  unfold cget ccacheGet
  rw [if_neg (by decide)]
  rcases cfind_views hc addr with ⟨e, h1⟩ | ⟨i, x, e, h1, -, h2, h3⟩
  · left
    rw [e]
    refine ⟨rfl, fun hm => ?_⟩
    obtain ⟨v, hv, rfl⟩ := List.mem_map.1 hm
    exact h1 v ((hq.mem ha).2 hv) rfl
  · right
    have hx := hc.elems x (List.mem_of_getElem? h1)
    have h4 := hx.data
    have h5 := hx.size
    have hv : cview x = (addr, (cview x).2) := by rw [← h2]
    rw [hv] at h3
    refine ⟨i, (cview x).2, ?_, (hq.mem (v := (addr, (cview x).2)) ha).1 (List.mem_of_getElem? h3), h3⟩
    rw [e, Out.bind_ok]
    dsimp only
    rw [h1]
    change Out.ok (some (i, x.size)) = _
    congr 3
    change _ = (x.data.take x.size).length
    rw [List.length_take]
    omega

/-! ## C80: a session with a server is found again -/

/-- C80: the cache of the client is a queue of `n` places: after every history of calls, what is read for an address is what the queue holds for
it, and nothing if the queue does not hold the address. -/
theorem C80_queue {A n : Nat} (hA : 0 < A) {c0 : CCache} {mem : Bool} (h0 : ccreate A n mem = .ok c0) {h : List CSet}
    (hh : ∀ o ∈ h, IsAddr A o.addr) {addr : Bytes} (ha : IsAddr A addr) :
    ∃ c, crun A c0 h = .ok c ∧
      (addr ∉ (queue n h).map Prod.fst → (cget c addr true true >>= cread c) = .ok []) ∧
      ∀ d, (addr, d) ∈ queue n h → (cget c addr true true >>= cread c) = .ok d := by
  obtain ⟨hc0, hq0⟩ := ccreate_queue hA h0
  obtain ⟨c, e, hc, hq⟩ := crun_from hc0 hq0 hh
  refine ⟨c, e, ?_⟩
  rcases get_queue hc hq ha.1 with ⟨e1, h1⟩ | ⟨i, d, e1, h1, h2⟩
  · rw [e1, Out.bind_ok]
    exact ⟨fun _ => rfl, fun d hd => absurd (List.mem_map.2 ⟨_, hd, rfl⟩) h1⟩
  · rw [e1, Out.bind_ok, read_ok hc h2]
    refine ⟨fun hn => absurd (List.mem_map.2 ⟨_, h1, rfl⟩) hn, fun d' hd => ?_⟩
    rw [nodup_eq hq.ok.nodup h1 hd]

/-- C80: the copy of an address stays in its field, however long the address is: as much as fits is kept, followed by a NUL. -/
theorem C80_copy {A : Nat} {dst addr : Bytes} (hA : 0 < A) (hl : dst.length = A) (h0 : (0 : Byte) ∉ addr) :
    ∃ dst', strncpy dst addr A = .ok (dst', addr.length) ∧ dst'.length = A ∧ (0 : Byte) ∈ dst' ∧ cstr dst' = addr.take (A - 1) :=
  strncpy_all hl hA h0

example : strncpy [9, 9, 9] [1, 2, 3, 4] 3 = .ok ([1, 2, 0], 4) := by decide +kernel

/-- C80: whatever is read for an address is what was stored for it last. -/
theorem C80_own {A n : Nat} (hA : 0 < A) {c0 : CCache} {mem : Bool} (h0 : ccreate A n mem = .ok c0) {h : List CSet}
    (hh : ∀ o ∈ h, IsAddr A o.addr) {addr : Bytes} (ha : IsAddr A addr) :
    ∃ c d, crun A c0 h = .ok c ∧ (cget c addr true true >>= cread c) = .ok d ∧ (d ≠ [] → CLatest h addr d) := by
  obtain ⟨c, e, h1, h2⟩ := C80_queue hA h0 hh ha
  have hn := (ccreate_queue hA h0).1.pos
  by_cases hm : addr ∈ (queue n h).map Prod.fst
  · obtain ⟨⟨a, d⟩, hv, rfl⟩ := List.mem_map.1 hm
    exact ⟨c, d, e, h2 d hv, fun _ => (queue_holds hn (fun o ho => (hh o ho).1)).latest a d hv⟩
  · exact ⟨c, [], e, h1 hm, fun h => absurd rfl h⟩

/-- C80: as long as there are not more addresses than places, what was stored last for an address is found, and nothing else. -/
theorem C80_found {A n : Nat} (hA : 0 < A) {c0 : CCache} {mem : Bool} (h0 : ccreate A n mem = .ok c0) {h : List CSet}
    (hh : ∀ o ∈ h, IsAddr A o.addr) {addr d : Bytes} (ha : IsAddr A addr) (hd : d ≠ []) (hl : AtMost n h) :
    ∃ c, crun A c0 h = .ok c ∧ ((cget c addr true true >>= cread c) = .ok d ↔ CLatest h addr d) := by
  obtain ⟨c, e, h1, h2⟩ := C80_queue hA h0 hh ha
  have hn := (ccreate_queue hA h0).1.pos
  have H := queue_holds hn (fun o ho => (hh o ho).1)
  refine ⟨c, e, fun hr => ?_, fun hl' => h2 d (H.complete hl _ _ hl')⟩
  by_cases hm : addr ∈ (queue n h).map Prod.fst
  · obtain ⟨⟨a, d'⟩, hv, rfl⟩ := List.mem_map.1 hm
    rw [h2 d' hv] at hr
    cases hr
    exact H.latest a _ hv
  · rw [h1 hm] at hr
    cases hr
    exact absurd rfl hd

/-- Two addresses, one of them twice. -/
def exSets : List CSet := [⟨[49, 46, 49], [1, 2, 3, 4], true, true⟩, ⟨[50, 46, 50], [5, 6], true, true⟩, ⟨[49, 46, 49], [7], true, true⟩]

/-- The hypotheses are met. -/
example : (∀ o ∈ exSets, IsAddr 16 o.addr) ∧ IsAddr 16 [49, 46, 49] ∧ AtMost 2 exSets ∧ queue 2 exSets = [([49, 46, 49], [7]), ([50, 46, 50], [5, 6])] := by
  refine ⟨?_, ?_, ⟨[[49, 46, 49], [50, 46, 50]], by decide, by decide⟩, by decide⟩
  · unfold IsAddr; decide
  · unfold IsAddr; decide

/-- With a third address, the first one falls out. -/
example : queue 2 (exSets ++ [⟨[51], [9], true, true⟩]) = [([50, 46, 50], [5, 6]), ([51], [9])] := by decide

/-! ## C81: the data of a session are not changed while they are read -/

/-- C81: `tls_client_get` returns a pointer into the cache. Whatever other threads store before the caller reads the data, the caller reads data that
were stored for the address. -/
def C81_statement : Prop :=
  ∀ (A n : Nat) (c0 c c' : CCache) (h1 h2 : List CSet) (addr d : Bytes) (r : Option (Nat × Nat)), 0 < A → ccreate A n true = .ok c0 →
    (∀ o ∈ h1 ++ h2, IsAddr A o.addr) → IsAddr A addr → crun A c0 h1 = .ok c → cget c addr true true = .ok r → crun A c h2 = .ok c' →
    cread c' r = .ok d → d = [] ∨ ∃ o ∈ h1 ++ h2, o.Stores addr d

/-- Calls for other addresses leave an element alone or put something else into it. -/
theorem stays {A n : Nat} {addr d : Bytes} {i : Nat} : ∀ {h : List CSet} {c c' : CCache}, CInv A n c →
    (∀ o ∈ h, IsAddr A o.addr) → (∀ o ∈ h, o.addr ≠ addr) → crun A c h = .ok c' →
    (cviews c)[i]? = some (addr, d) ∧ (∀ j w, (cviews c)[j]? = some (addr, w) → j = i) ∨ (∀ v ∈ cviews c, v.1 ≠ addr) →
    (cviews c')[i]? = some (addr, d) ∨ ∀ v ∈ cviews c', v.1 ≠ addr
  | [], c, c', _, _, _, e, hs => by
    cases e
    exact hs.elim (fun h => .inl h.1) .inr
  | o :: h, c, c', hc, ha, hne, e, hs => by
    have hno := hne o (List.mem_cons_self ..)
    obtain ⟨c1, st, e1, hc1, D⟩ := cset_does hc o (ha o (List.mem_cons_self ..))
    rw [crun, e1, Out.bind_ok] at e
    refine stays hc1 (fun x hx => ha x (List.mem_cons_of_mem _ hx)) (fun x hx => hne x (List.mem_cons_of_mem _ hx)) e ?_
    have key : ∀ k v, k < n → cviews c1 = (cviews c).set k (o.addr, v) →
        ((cviews c1)[i]? = some (addr, d) ∧ (∀ j w, (cviews c1)[j]? = some (addr, w) → j = i)) ∨ (∀ v ∈ cviews c1, v.1 ≠ addr) := by
      intro k v hk hv
      have hget : ∀ j x, (cviews c1)[j]? = some x → x.1 = addr → j ≠ k ∧ (cviews c)[j]? = some x := by
        intro j x hj hx
        rw [hv, List.getElem?_set] at hj
        split at hj
        · split at hj
          · cases hj
            exact absurd hx hno
          · cases hj
        · rename_i h
          exact ⟨fun e => h e.symm, hj⟩
      rcases hs with ⟨h1, h2⟩ | h1
      · by_cases hki : k = i
        · right
          rintro ⟨a, w⟩ hm rfl
          obtain ⟨j, hj⟩ := List.mem_iff_getElem?.1 hm
          obtain ⟨h3, h4⟩ := hget j _ hj rfl
          exact h3 ((h2 j w h4).trans hki.symm)
        · left
          refine ⟨by rw [hv, List.getElem?_set_ne hki]; exact h1, fun j w hj => h2 j w (hget j _ hj rfl).2⟩
      · right
        intro x hm hx
        obtain ⟨j, hj⟩ := List.mem_iff_getElem?.1 hm
        exact h1 x (List.mem_of_getElem? (hget j x hj hx).2) hx
    cases D with
    | updates _ _ hi hv _ =>
      refine key _ _ ?_ hv
      have := (List.getElem?_eq_some_iff.1 hi).1
      rw [cviews_length hc] at this
      exact this
    | adds _ _ _ hv _ => exact key _ _ hc.index hv
    | fails _ hx =>
      rw [hx]
      exact hs

theorem count_unique {a d : Bytes} {i : Nat} : ∀ {v : List (Bytes × Bytes)} {j : Nat} {w : Bytes}, v.countP (fun x => decide (x.1 = a)) ≤ 1 →
    v[i]? = some (a, d) → v[j]? = some (a, w) → j = i := by
  intro v j w hc hi hj
  have h1 := set_eq_map (x := (a ++ [0], [])) hc hi (by rw [decide_eq_true_iff])
  have h2 := set_eq_map (x := (a ++ [0], [])) hc hj (by rw [decide_eq_true_iff])
  have h3 := h1.trans h2.symm
  apply Classical.byContradiction
  intro hne
  have h4 := congrArg (fun l => l[j]?) h3
  have hjl : j < v.length := (List.getElem?_eq_some_iff.1 hj).1
  rw [List.getElem?_set_ne (fun e => hne e.symm), hj, List.getElem?_set_self hjl] at h4
  have h5 := congrArg List.length (congrArg Prod.fst (Option.some.inj h4))
  simp at h5

/-- C81 if nothing is stored for the address in between and the queue still holds the address: then the data are those that were stored last. -/
theorem C81_quiet_partial {A n : Nat} (hA : 0 < A) {c0 c c' : CCache} {mem : Bool} (h0 : ccreate A n mem = .ok c0) {h1 h2 : List CSet}
    (hh : ∀ o ∈ h1 ++ h2, IsAddr A o.addr) {addr : Bytes} (ha : IsAddr A addr) {r : Option (Nat × Nat)} (e1 : crun A c0 h1 = .ok c)
    (eg : cget c addr true true = .ok r) (e2 : crun A c h2 = .ok c') (hne : ∀ o ∈ h2, o.addr ≠ addr)
    (hin : addr ∈ (queue n (h1 ++ h2)).map Prod.fst) :
    ∃ d, cread c' r = .ok d ∧ CLatest (h1 ++ h2) addr d := by
  obtain ⟨hc0, hq0⟩ := ccreate_queue hA h0
  obtain ⟨x, ex, hc, hq⟩ := crun_from hc0 hq0 (fun o ho => hh o (List.mem_append_left _ ho))
  obtain rfl : x = c := by rw [ex] at e1; exact Out.ok.inj e1
  have hh2 : ∀ o ∈ h2, IsAddr A o.addr := fun o ho => hh o (List.mem_append_right _ ho)
  obtain ⟨y, ey, hc', hq'⟩ := crun_from hc hq hh2
  obtain rfl : y = c' := by rw [ey] at e2; exact Out.ok.inj e2
  rw [← List.foldl_append] at hq'
  have H := queue_holds hc.pos (fun o ho => (hh o ho).1)
  obtain ⟨⟨a, d'⟩, hm, rfl⟩ := List.mem_map.1 hin
  have hv' : (a, d') ∈ cviews y := (hq'.mem (v := (a, d')) ha.1).2 hm
  rcases get_queue hc hq ha.1 with ⟨e3, h3⟩ | ⟨i, d, e3, h3, h4⟩
  · exfalso
    have hno : ∀ v ∈ cviews x, v.1 ≠ a := by
      rintro ⟨b, w⟩ hv rfl
      exact h3 (List.mem_map.2 ⟨(b, w), (hq.mem (v := (b, w)) ha.1).1 hv, rfl⟩)
    rcases stays (d := d' ++ [0]) (i := (cviews y).length) hc hh2 hne ey (.inr hno) with h5 | h5
    · rw [List.getElem?_eq_none (Nat.le_refl _)] at h5
      cases h5
    · exact h5 _ hv' rfl
  · obtain rfl : r = some (i, d.length) := by rw [e3] at eg; exact (Out.ok.inj eg).symm
    rcases stays hc hh2 hne ey (.inl ⟨h4, fun j w hj => count_unique (hq.count ha.1) h4 hj⟩) with h5 | h5
    · refine ⟨d, read_ok hc' h5, H.latest a d ?_⟩
      exact (hq'.mem (v := (a, d)) ha.1).1 (List.mem_of_getElem? h5)
    · exact absurd rfl (h5 _ hv')

/-- C81 if nothing is stored for the address in between and there are not more addresses than places. -/
theorem C81_few_partial {A n : Nat} (hA : 0 < A) {c0 c c' : CCache} {mem : Bool} (h0 : ccreate A n mem = .ok c0) {h1 h2 : List CSet}
    (hh : ∀ o ∈ h1 ++ h2, IsAddr A o.addr) {addr : Bytes} (ha : IsAddr A addr) {r : Option (Nat × Nat)} (e1 : crun A c0 h1 = .ok c)
    (eg : cget c addr true true = .ok r) (e2 : crun A c h2 = .ok c') (hne : ∀ o ∈ h2, o.addr ≠ addr) (hl : AtMost n (h1 ++ h2)) {d : Bytes}
    (hd : CLatest h1 addr d) : cread c' r = .ok d := by
  have hn := (ccreate_queue hA h0).1.pos
  have H := queue_holds hn (fun o ho => (hh o ho).1)
  have hd2 : CLatest (h1 ++ h2) addr d := by
    obtain ⟨x, o, z, e, h3, h4⟩ := hd
    refine ⟨x, o, z ++ h2, by rw [e]; simp, h3, fun w hw => ?_⟩
    rcases List.mem_append.1 hw with hw | hw
    · exact h4 w hw
    · exact fun d' hs => hne w hw hs.1
  have hm := H.complete hl _ _ hd2
  obtain ⟨d', e, hl'⟩ := C81_quiet_partial hA h0 hh ha e1 eg e2 hne (List.mem_map.2 ⟨_, hm, rfl⟩)
  rw [e, nodup_eq H.ok.nodup hm (H.complete hl _ _ hl')]

/-- The hypotheses are met: another address is stored before the data are read. -/
example : (∀ o ∈ [(⟨[50], [5, 6], true, true⟩ : CSet)], o.addr ≠ [49]) ∧
    [49] ∈ (queue 50 ([⟨[49], [1, 2, 3, 4], true, true⟩] ++ [⟨[50], [5, 6], true, true⟩])).map Prod.fst := by decide

/-- What is read after another session with the same server was stored. -/
def torn : Out Bytes :=
  crun 16 ⟨List.replicate 50 (CElem.zero 16), 0⟩ [⟨[49], [1, 2, 3, 4], true, true⟩] >>= fun c =>
  cget c [49] true true >>= fun r => crun 16 c [⟨[49], [7], true, true⟩] >>= fun c' => cread c' r

theorem torn_eq : torn = .ok [7, 2, 3, 4] := by decide +kernel

/-- C81 fails: the data of two sessions are mixed. -/
theorem C81_violated : ¬ C81_statement := by
  intro h
  have ht := torn_eq
  unfold torn at ht
  obtain ⟨c, e1, ht⟩ := Out.bind_eq_ok.1 ht
  obtain ⟨r, e2, ht⟩ := Out.bind_eq_ok.1 ht
  obtain ⟨c', e3, ht⟩ := Out.bind_eq_ok.1 ht
  rcases h 16 50 _ c c' [⟨[49], [1, 2, 3, 4], true, true⟩] [⟨[49], [7], true, true⟩] [49] [7, 2, 3, 4] r (by decide) rfl
    (by unfold IsAddr; decide) (by unfold IsAddr; decide) e1 e2 e3 ht with h | ⟨o, ho, hs⟩
  · cases h
  · obtain ⟨-, hd, -⟩ := hs
    simp only [List.cons_append, List.nil_append, List.mem_cons, List.not_mem_nil, or_false] at ho
    rcases ho with rfl | rfl <;> cases hd

end FreeCoAP.Tls
