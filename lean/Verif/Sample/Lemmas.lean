import Verif.Sample.Spec

/-! # Lemmas about the registrar -/

namespace FreeCoAP.Sample

/-- The nodes of a list: address, id and address of the client. -/
abbrev Nodes := List (Nat × Bytes × Bytes)

/-- The memory of a list whose first entry has the pointer `prev` to the entry before. -/
def build : Option Nat → Nodes → Heap
  | _, [] => []
  | prev, (p, i, a) :: l => (p, ⟨i, a, prev, l.head?.map Prod.fst⟩) :: build (some p) l

theorem build_fst : ∀ (prev : Option Nat) (l : Nodes), (build prev l).map Prod.fst = l.map Prod.fst
  | _, [] => rfl
  | _, (p, i, a) :: l => by rw [build, List.map_cons, List.map_cons, build_fst]

theorem build_length (prev : Option Nat) (l : Nodes) : (build prev l).length = l.length := by
  have := congrArg List.length (build_fst prev l)
  simpa using this

/-- A registrar in order. -/
structure Ok (prev : Option Nat) (l : Nodes) (r : Reg) : Prop where
  heap : r.heap = build prev l
  first : r.first = l.head?.map Prod.fst
  last : r.last = l.getLast?.map Prod.fst
  nodup : (l.map Prod.fst).Nodup

/-- The map of the nodes. -/
def toMap (l : Nodes) : Map := l.map Prod.snd

theorem look_append {h1 h2 : Heap} {p : Nat} (hp : p ∉ h1.map Prod.fst) : look (h1 ++ h2) p = look h2 p := by
  induction h1 with
  | nil => rfl
  | cons x h1 ih =>
    obtain ⟨q, e⟩ := x
    rw [List.map_cons, List.mem_cons, not_or] at hp
    rw [List.cons_append, look, if_neg (fun h => hp.1 h.symm), ih hp.2]

theorem look_left {h1 h2 : Heap} {p : Nat} {e : Entry} (hp : look h1 p = some e) : look (h1 ++ h2) p = some e := by
  induction h1 with
  | nil => cases hp
  | cons x h1 ih =>
    obtain ⟨q, e'⟩ := x
    rw [look] at hp
    rw [List.cons_append, look]
    split at hp
    · rename_i hq
      rw [if_pos hq, hp]
    · rename_i hq
      rw [if_neg hq, ih hp]

theorem put_append {h1 h2 : Heap} {p : Nat} {e : Entry} (hp : p ∉ h1.map Prod.fst) : put (h1 ++ h2) p e = h1 ++ put h2 p e := by
  induction h1 with
  | nil => rfl
  | cons x h1 ih =>
    obtain ⟨q, e⟩ := x
    rw [List.map_cons, List.mem_cons, not_or] at hp
    rw [List.cons_append, put, if_neg (fun h => hp.1 h.symm), ih hp.2, List.cons_append]

/-- A list in two parts. -/
theorem build_append : ∀ (l1 : Nodes) (prev : Option Nat) (p : Nat),
    ∃ h1 : Heap, ∃ pr : Option Nat, h1.map Prod.fst = l1.map Prod.fst ∧
      ∀ i a l2, build prev (l1 ++ (p, i, a) :: l2) = h1 ++ (p, ⟨i, a, pr, l2.head?.map Prod.fst⟩) :: build (some p) l2
  | [], prev, p => ⟨[], prev, rfl, fun _ _ _ => rfl⟩
  | (q, j, b) :: l1, prev, p => by
    obtain ⟨h1, pr, e1, e2⟩ := build_append l1 (some q) p
    have hh : ∀ i a (l2 : Nodes), (l1 ++ (p, i, a) :: l2).head?.map Prod.fst = (l1 ++ [(p, [], [])]).head?.map Prod.fst := by
      intro i a l2
      cases l1 <;> rfl
    refine ⟨(q, ⟨j, b, prev, (l1 ++ [(p, [], [])]).head?.map Prod.fst⟩) :: h1, pr, by rw [List.map_cons, e1, List.map_cons], fun i a l2 => ?_⟩
    rw [List.cons_append, build, e2, hh]; rfl

/-- The node with an id, as the loop looks for it. -/
theorem findFrom_ok (id : Bytes) : ∀ (l2 l1 : Nodes) (prev : Option Nat) (n : Nat), l2.length ≤ n → ((l1 ++ l2).map Prod.fst).Nodup →
    findFrom (build prev (l1 ++ l2)) id n (l2.head?.map Prod.fst) = .ok ((l2.find? (fun x => x.2.1 = id)).map Prod.fst)
  | [], _, _, n, _, _ => by cases n <;> rfl
  | (p, i, a) :: l2, l1, prev, 0, hn, _ => by simp at hn
  | (p, i, a) :: l2, l1, prev, n + 1, hn, hd => by
    obtain ⟨h1, pr, e1, e2⟩ := build_append l1 prev p
    have hp : p ∉ h1.map Prod.fst := by
      rw [e1]
      rw [List.map_append, List.map_cons] at hd
      intro h
      exact (List.nodup_append.1 hd).2.2 p h p (by simp) rfl
    have hl : look (build prev (l1 ++ (p, i, a) :: l2)) p = some ⟨i, a, pr, l2.head?.map Prod.fst⟩ := by
      rw [e2, look_append hp, look, if_pos rfl]
    have hd' : deref (build prev (l1 ++ (p, i, a) :: l2)) p = .ok ⟨i, a, pr, l2.head?.map Prod.fst⟩ := by
      unfold deref; rw [hl]
    rw [show (((p, i, a) :: l2).head?.map Prod.fst) = some p from rfl, findFrom, hd', Out.bind_ok]
    dsimp only
    rw [List.find?_cons]
    by_cases hi : i = id
    · rw [if_pos hi]
      simp only [hi, decide_true, Option.map_some]
    · rw [if_neg hi]
      simp only [hi, decide_false]
      have := findFrom_ok id l2 (l1 ++ [(p, i, a)]) prev n (by simp at hn; omega) (by simpa using hd)
      rw [List.append_assoc, List.singleton_append] at this
      exact this

theorem find_ok {prev : Option Nat} {l : Nodes} {r : Reg} (h : Ok prev l r) (id : Bytes) :
    find r id = .ok ((l.find? (fun x => x.2.1 = id)).map Prod.fst) := by
  unfold find
  rw [h.heap, h.first, build_length]
  exact findFrom_ok id l [] prev _ (by omega) (by simpa using h.nodup)

theorem get_toMap (l : Nodes) (id : Bytes) : (toMap l).get id = (l.find? (fun x => x.2.1 = id)).map Prod.snd := by
  unfold toMap Map.get
  rw [List.find?_map]
  rfl

/-- The node that is found splits the list. -/
theorem find_split {l : Nodes} {id : Bytes} {x : Nat × Bytes × Bytes} (h : l.find? (fun x => x.2.1 = id) = some x) :
    ∃ l1 l2, l = l1 ++ x :: l2 ∧ x.2.1 = id ∧ ∀ y ∈ l1, y.2.1 ≠ id := by
  obtain ⟨h1, l1, l2, h2, h3⟩ := List.find?_eq_some_iff_append.1 h
  exact ⟨l1, l2, h2, of_decide_eq_true h1, fun y hy => by simpa using h3 y hy⟩

/-- The entry of a node. -/
theorem deref_ok {prev : Option Nat} {l1 l2 : Nodes} {p : Nat} {i a : Bytes} (hd : ((l1 ++ (p, i, a) :: l2).map Prod.fst).Nodup) :
    ∃ pr, deref (build prev (l1 ++ (p, i, a) :: l2)) p = .ok ⟨i, a, pr, l2.head?.map Prod.fst⟩ ∧
      ∀ i' a', put (build prev (l1 ++ (p, i, a) :: l2)) p ⟨i', a', pr, l2.head?.map Prod.fst⟩ = build prev (l1 ++ (p, i', a') :: l2) := by
  obtain ⟨h1, pr, e1, e2⟩ := build_append l1 prev p
  have hp : p ∉ h1.map Prod.fst := by
    rw [e1]
    rw [List.map_append, List.map_cons] at hd
    intro h
    exact (List.nodup_append.1 hd).2.2 p h p (by simp) rfl
  refine ⟨pr, ?_, fun i' a' => ?_⟩
  · unfold deref
    rw [e2, look_append hp, look, if_pos rfl]
  · rw [e2, put_append hp, put, if_pos rfl, e2]

theorem nodup_mid {l1 l2 : Nodes} {p : Nat} {i a : Bytes} (hd : ((l1 ++ (p, i, a) :: l2).map Prod.fst).Nodup) :
    p ∉ l1.map Prod.fst ∧ p ∉ l2.map Prod.fst := by
  rw [List.map_append, List.map_cons] at hd
  have h := List.nodup_append.1 hd
  exact ⟨fun h' => h.2.2 p h' p (by simp) rfl, (List.nodup_cons.1 h.2.1).1⟩

/-- A new entry is appended. -/
theorem link_ok {prev : Option Nat} {l : Nodes} {r : Reg} (h : Ok prev l r) {p : Nat} {id addr : Bytes} (hp : p ∉ l.map Prod.fst) :
    ∃ r', link { r with heap := r.heap ++ [(p, ⟨id, addr, none, none⟩)] } p = .ok r' ∧
      Ok (if l = [] then none else prev) (l ++ [(p, id, addr)]) r' := by
  have hnd : ((l ++ [(p, id, addr)]).map Prod.fst).Nodup := by
    rw [List.map_append, List.nodup_append]
    refine ⟨h.nodup, by simp, fun x hx y hy => ?_⟩
    simp only [List.map_cons, List.map_nil, List.mem_singleton] at hy
    subst hy
    rintro rfl
    exact hp hx
  unfold link
  dsimp only
  rcases List.eq_nil_or_concat l with rfl | ⟨l', ⟨q, i, a⟩, rfl⟩
  · have h1 := h.first
    have h2 := h.last
    have h3 := h.heap
    simp only [List.head?_nil, List.getLast?_nil, Option.map_none, build] at h1 h2 h3
    rw [if_pos ⟨h1, h2⟩, if_pos rfl]
    exact ⟨_, rfl, by rw [h3]; rfl, rfl, rfl, hnd⟩
  · rw [List.concat_eq_append] at *
    have h1 := h.first
    have h2 := h.last
    rw [List.getLast?_append, List.getLast?_singleton] at h2
    simp only [Option.some_or, Option.map_some] at h2
    rw [if_neg (by rw [h2]; simp), if_neg (by simp), h.heap, h2]
    obtain ⟨g1, pr, e1, e2⟩ := build_append l' prev q
    have hq := nodup_mid h.nodup
    have hpq : p ∉ (build prev (l' ++ [(q, i, a)])).map Prod.fst := by rw [build_fst]; exact hp
    have hne : q ≠ p := by
      rintro rfl
      exact hp (by simp)
    have d1 : deref (build prev (l' ++ [(q, i, a)]) ++ [(p, ⟨id, addr, none, none⟩)]) p = .ok ⟨id, addr, none, none⟩ := by
      unfold deref
      rw [look_append hpq, look, if_pos rfl]
    have d2 : put (build prev (l' ++ [(q, i, a)]) ++ [(p, ⟨id, addr, none, none⟩)]) p ⟨id, addr, some q, none⟩ =
        g1 ++ [(q, ⟨i, a, pr, none⟩), (p, ⟨id, addr, some q, none⟩)] := by
      rw [put_append hpq, put, if_pos rfl, e2, List.append_assoc]
      rfl
    have hg : q ∉ g1.map Prod.fst := by rw [e1]; exact hq.1
    have d3 : deref (g1 ++ [(q, ⟨i, a, pr, none⟩), (p, ⟨id, addr, some q, none⟩)]) q = .ok ⟨i, a, pr, none⟩ := by
      unfold deref
      rw [look_append hg, look, if_pos rfl]
    rw [d1, Out.bind_ok]
    dsimp only
    rw [d2, d3, Out.bind_ok]
    refine ⟨_, rfl, ?_, ?_, ?_, hnd⟩
    · dsimp only
      rw [put_append hg, put, if_pos rfl, List.append_assoc, List.singleton_append, e2]
      rfl
    · dsimp only
      rw [h1]
      cases l' <;> rfl
    · simp

/-- The address of a client changes. -/
theorem setAddr_ok {L : Nat} {prev : Option Nat} {l : Nodes} {r : Reg} (h : Ok prev l r) {id addr : Bytes} {p : Nat} {i a : Bytes}
    (hf : l.find? (fun x => x.2.1 = id) = some (p, i, a)) (hu : ∀ l1 l2, l = l1 ++ (p, i, a) :: l2 → ∀ y ∈ l2, y.2.1 ≠ id) :
    ∃ h' l', setAddr L r.heap p addr = .ok h' ∧ Ok prev l' { r with heap := h' } ∧ toMap l' = (toMap l).set id (copy L addr) ∧
      l'.map Prod.fst = l.map Prod.fst := by
  obtain ⟨l1, l2, rfl, hi, hn⟩ := find_split hf
  obtain ⟨pr, d1, d2⟩ := deref_ok (prev := prev) h.nodup
  have hu := hu l1 l2 rfl
  unfold setAddr
  rw [h.heap, d1, Out.bind_ok]
  dsimp only at hi ⊢
  refine ⟨_, l1 ++ (p, i, copy L addr) :: l2, rfl, ⟨d2 _ _, ?_, ?_, ?_⟩, ?_, by simp⟩
  · rw [show ({ r with heap := _ } : Reg).first = r.first from rfl, h.first]
    cases l1 <;> rfl
  · rw [show ({ r with heap := _ } : Reg).last = r.last from rfl, h.last]
    cases l2 with
    | nil => simp
    | cons y l2 => simp [List.getLast?_append, List.getLast?_cons]
  · simpa using h.nodup
  · unfold toMap Map.set
    have k1 : ∀ (l : Nodes), (∀ y ∈ l, y.2.1 ≠ id) → (l.map Prod.snd).map (fun x => if x.1 = id then (x.1, copy L addr) else x) = l.map Prod.snd := by
      intro l hl
      rw [List.map_map]
      apply List.map_congr_left
      intro y hy
      exact if_neg (hl y hy)
    rw [List.map_append, List.map_append, List.map_append, k1 l1 hn, List.map_cons, List.map_cons, List.map_cons, k1 l2 hu, if_pos hi]

theorem filter_build {p : Nat} {e : Entry} {prev : Option Nat} {l : Nodes} (hp : p ∉ l.map Prod.fst) :
    ((p, e) :: build prev l).filter (fun b => b.1 ≠ p) = build prev l := by
  rw [List.filter_cons_of_neg (by simp)]
  apply List.filter_eq_self.2
  intro b hb
  have : b.1 ∈ (build prev l).map Prod.fst := List.mem_map_of_mem hb
  rw [build_fst] at this
  have hne : b.1 ≠ p := fun h => hp (h ▸ this)
  simpa using hne

/-- The memory of the first entry is released. -/
theorem free_first {p : Nat} {i a : Bytes} {prev : Option Nat} {l : Nodes} (hp : p ∉ l.map Prod.fst) :
    deref (build prev ((p, i, a) :: l)) p = .ok ⟨i, a, prev, l.head?.map Prod.fst⟩ ∧ free (build prev ((p, i, a) :: l)) p = .ok (build (some p) l) := by
  have hl : look (build prev ((p, i, a) :: l)) p = some ⟨i, a, prev, l.head?.map Prod.fst⟩ := by rw [build, look, if_pos rfl]
  unfold deref free
  rw [hl]
  refine ⟨rfl, ?_⟩
  dsimp only
  rw [build, filter_build hp]

theorem destroyFrom_ok : ∀ (l : Nodes) (prev : Option Nat) (n : Nat), l.length ≤ n → (l.map Prod.fst).Nodup →
    destroyFrom n (build prev l) (l.head?.map Prod.fst) = .ok []
  | [], _, n, _, _ => by cases n <;> rfl
  | (p, i, a) :: l, prev, 0, hn, _ => by simp at hn
  | (p, i, a) :: l, prev, n + 1, hn, hd => by
    rw [List.map_cons, List.nodup_cons] at hd
    obtain ⟨h1, h2⟩ := free_first (i := i) (a := a) (prev := prev) hd.1
    rw [show (((p, i, a) :: l).head?.map Prod.fst) = some p from rfl, destroyFrom, h1, Out.bind_ok, h2, Out.bind_ok]
    exact destroyFrom_ok l (some p) n (by simp at hn; omega) hd.2

theorem destroy_ok {prev : Option Nat} {l : Nodes} {r : Reg} (h : Ok prev l r) : destroy r = .ok [] := by
  unfold destroy
  rw [h.heap, h.first, build_length]
  exact destroyFrom_ok l prev _ (by omega) h.nodup

/-- No id is there twice. -/
def Ids (l : Nodes) : Prop := (l.map (fun x => x.2.1)).Nodup

theorem ids_after {l : Nodes} (h : Ids l) {p : Nat} {i a : Bytes} {l1 l2 : Nodes} (hl : l = l1 ++ (p, i, a) :: l2) : ∀ y ∈ l2, y.2.1 ≠ i := by
  subst hl
  unfold Ids at h
  rw [List.map_append, List.map_cons] at h
  have := (List.nodup_cons.1 (List.nodup_append.1 h).2.1).1
  intro y hy he
  exact this (List.mem_map.2 ⟨y, hy, he⟩)

theorem ids_map {l l' : Nodes} (h : (toMap l').map Prod.fst = (toMap l).map Prod.fst) (hi : Ids l) : Ids l' := by
  unfold Ids at hi ⊢
  unfold toMap at h
  rw [List.map_map, List.map_map] at h
  exact h ▸ hi

theorem set_fst (m : Map) (id addr : Bytes) : (m.set id addr).map Prod.fst = m.map Prod.fst := by
  unfold Map.set
  rw [List.map_map]
  apply List.map_congr_left
  intro x _
  simp only [Function.comp_apply]
  split <;> rfl

/-- `registrar_add`. -/
theorem add_ok {L : Nat} {prev : Option Nat} {l : Nodes} {r : Reg} (h : Ok prev l r) (hi : Ids l) {id addr : Bytes} {alloc : List Nat → Option Nat}
    (hf : ∀ live p, alloc live = some p → p ∉ live) (h1 : id.length < 32) (h2 : addr.length < L) :
    ∃ ok res r' prev' l', add L r id addr alloc = .ok (res, r') ∧ Ok prev' l' r' ∧ Ids l' ∧
      (toMap l).step ok (.add id addr alloc) = (.ret res, toMap l') ∧ (prev' = prev ∨ l = [] ∧ prev' = none) ∧
      (ok = false → ∃ live, alloc live = none) := by
  have c1 : copy ID_LEN id = id := List.take_of_length_le (by unfold ID_LEN; omega)
  have c2 : copy L addr = addr := List.take_of_length_le (by omega)
  unfold add
  rw [find_ok h, Out.bind_ok]
  cases hx : l.find? (fun x => x.2.1 = id) with
  | some x =>
    obtain ⟨p, i, a⟩ := x
    have hii : i = id := by obtain ⟨_, _, _, h, _⟩ := find_split hx; exact h
    obtain ⟨h', l', e1, e2, e3, e4⟩ := setAddr_ok (L := L) (addr := addr) h hx (fun l1 l2 hl => hii ▸ ids_after hi hl)
    simp only [Option.map_some]
    rw [e1, Out.bind_ok]
    refine ⟨true, _, _, prev, l', rfl, e2, ids_map (by rw [e3, set_fst]) hi, ?_, Or.inl rfl, by simp⟩
    unfold Map.step
    dsimp only
    rw [get_toMap, hx, e3, c2]
    rfl
  | none =>
    simp only [Option.map_none]
    cases ha : alloc (r.heap.map Prod.fst) with
    | none =>
      refine ⟨false, _, _, prev, l, rfl, h, hi, ?_, Or.inl rfl, fun _ => ⟨_, ha⟩⟩
      unfold Map.step
      dsimp only
      rw [get_toMap, hx]
      rfl
    | some p =>
      have hp : p ∉ l.map Prod.fst := by
        have := hf _ _ ha
        rw [h.heap, build_fst] at this
        exact this
      obtain ⟨r', e1, e2⟩ := link_ok (id := id) (addr := addr) h hp
      dsimp only
      unfold entryNew
      rw [c1, c2, e1, Out.bind_ok]
      refine ⟨true, _, _, _, _, rfl, e2, ?_, ?_, ?_, by simp⟩
      · unfold Ids at hi ⊢
        rw [List.map_append, List.nodup_append]
        refine ⟨hi, by simp, fun x hx' y hy => ?_⟩
        simp only [List.map_cons, List.map_nil, List.mem_singleton] at hy
        subst hy
        rintro rfl
        obtain ⟨z, hz, rfl⟩ := List.mem_map.1 hx'
        have := List.find?_eq_none.1 hx z hz
        simp at this
      · unfold Map.step
        dsimp only
        rw [get_toMap, hx]
        simp [toMap]
      · split
        · rename_i hl
          exact Or.inr ⟨hl, rfl⟩
        · exact Or.inl rfl

/-- `registrar_del` for the first entry. -/
theorem del_ok {prev : Option Nat} {p : Nat} {i a : Bytes} {l : Nodes} {r : Reg} (h : Ok prev ((p, i, a) :: l) r) (hl : l = [] → prev = none) :
    ∃ r', del r i = .ok (.ok 0, r') ∧ Ok (if l = [] then none else some p) l r' := by
  unfold del
  have hnd := h.nodup
  rw [List.map_cons, List.nodup_cons] at hnd
  obtain ⟨h1, h2⟩ := free_first (i := i) (a := a) (prev := prev) hnd.1
  rw [find_ok h, Out.bind_ok, List.find?_cons_of_pos (by simp)]
  simp only [Option.map_some]
  rw [h.heap, h1, Out.bind_ok]
  dsimp only
  rw [h2, Out.bind_ok, h.first, h.last]
  refine ⟨_, rfl, ?_⟩
  cases l with
  | nil =>
    rw [hl rfl]
    exact ⟨rfl, by simp, by simp, hnd.2⟩
  | cons y l =>
    rw [if_neg (by simp)]
    refine ⟨rfl, by simp, ?_, hnd.2⟩
    dsimp only
    rw [if_neg, List.getLast?_cons_cons]
    rw [List.getLast?_cons_cons]
    intro he
    obtain ⟨z, hz, hzp⟩ := Option.map_eq_some_iff.1 he
    exact hnd.1 (List.mem_map.2 ⟨z, List.mem_of_getLast? hz, hzp⟩)

end FreeCoAP.Sample
