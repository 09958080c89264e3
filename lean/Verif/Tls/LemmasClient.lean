import Verif.Tls.Spec

/-!
# Lemmas about the cache of the client
-/

namespace FreeCoAP.Tls

open FreeCoAP.DataBuf (copyTo slice)

/-- What an element holds. -/
def cview (e : CElem) : Bytes × Bytes := (cstr e.addr, e.data.take e.size)

/-- The arrays have their lengths, and the address is terminated. -/
structure CElem.OK (A : Nat) (e : CElem) : Prop where
  addr : e.addr.length = A
  nul : (0 : Byte) ∈ e.addr
  data : e.data.length = 2048
  size : e.size ≤ 2048

theorem czero_ok {A : Nat} (h : 0 < A) : (CElem.zero A).OK A := by
  refine ⟨?_, ?_, ?_, Nat.zero_le _⟩
  · unfold CElem.zero; simp only [List.length_replicate]
  · unfold CElem.zero; rw [List.mem_replicate]; exact ⟨by omega, rfl⟩
  · unfold CElem.zero; simp only [List.length_replicate]; rfl

theorem cview_zero {A : Nat} : cview (CElem.zero A) = ([], []) := by
  unfold cview CElem.zero
  rw [List.take_zero]
  cases A with
  | zero => rfl
  | succ A => rfl

/-- The loop of `util_strncpy` when there is room. -/
theorem cpyLoop_ok (len : Nat) : ∀ (src dst : Bytes) (i : Nat), i + src.length < len → dst.length = len →
    ∃ dst', cpyLoop len dst i src = .ok (dst', i + src.length) ∧ dst'.length = len ∧
      dst'.take (i + src.length) = dst.take i ++ src
  | [], dst, i, _, hl => ⟨dst, rfl, hl, by simp⟩
  | b :: src, dst, i, h, hl => by
    rw [List.length_cons] at h
    obtain ⟨dst', e, h1, h2⟩ := cpyLoop_ok len src (dst.set i b) (i + 1) (by omega) (by rw [List.length_set]; exact hl)
    refine ⟨dst', ?_, h1, ?_⟩
    · rw [cpyLoop, if_pos (by omega), poke, if_pos (by omega), Out.bind_ok, e, List.length_cons]
      congr 2
      omega
    · rw [List.length_cons, show i + (src.length + 1) = i + 1 + src.length by omega, h2]
      have : (dst.set i b).take (i + 1) = dst.take i ++ [b] := by
        rw [List.take_add_one, List.take_set, List.set_eq_of_length_le (by rw [List.length_take]; omega),
          List.getElem?_set_self (by omega)]
        rfl
      rw [this]
      simp

theorem strncpy_ok {A : Nat} {dst src : Bytes} (hl : dst.length = A) (h : src.length < A) (h0 : (0 : Byte) ∉ src) :
    ∃ dst', strncpy dst src A = .ok (dst', src.length) ∧ dst'.length = A ∧ (0 : Byte) ∈ dst' ∧ cstr dst' = src := by
  obtain ⟨d, e, h1, h2⟩ := cpyLoop_ok A src dst 0 (by omega) hl
  rw [Nat.zero_add] at e h2
  rw [List.take_zero, List.nil_append] at h2
  refine ⟨d.set src.length 0, ?_, by rw [List.length_set]; exact h1, List.mem_set (by omega) _, ?_⟩
  · rw [strncpy, if_neg (by omega), e, Out.bind_ok]
    dsimp only
    rw [poke, if_pos (by omega), Out.bind_ok]
    rfl
  · rw [List.set_eq_take_append_cons_drop, if_pos (by omega), h2, cstr_append h0]

/-- Once the buffer is full, the loop only counts. -/
theorem cpyLoop_full (len : Nat) : ∀ (src dst : Bytes) (i : Nat), len - 1 ≤ i → cpyLoop len dst i src = .ok (dst, i)
  | [], _, _, _ => rfl
  | _ :: src, dst, i, h => by rw [cpyLoop, if_neg (by omega)]; exact cpyLoop_full len src dst i h

theorem cpyLoop_append (len : Nat) : ∀ (src src' dst : Bytes) (i : Nat),
    cpyLoop len dst i (src ++ src') = cpyLoop len dst i src >>= fun r => cpyLoop len r.1 r.2 src'
  | [], _, _, _ => rfl
  | b :: src, src', dst, i => by
    rw [List.cons_append, cpyLoop, cpyLoop]
    split
    · cases h : poke dst i b with
      | ok d => rw [Out.bind_ok, Out.bind_ok]; exact cpyLoop_append len src src' d (i + 1)
      | err => rfl
      | ub => rfl
    · exact cpyLoop_append len src src' dst i

/-- Whatever the length of the string, as much as fits is copied. -/
theorem strncpy_all {A : Nat} {dst src : Bytes} (hl : dst.length = A) (hA : 0 < A) (h0 : (0 : Byte) ∉ src) :
    ∃ dst', strncpy dst src A = .ok (dst', src.length) ∧ dst'.length = A ∧ (0 : Byte) ∈ dst' ∧ cstr dst' = src.take (A - 1) := by
  by_cases h : src.length < A
  · rw [List.take_of_length_le (by omega)]
    exact strncpy_ok hl h h0
  · obtain ⟨d, e, h1, h2⟩ := cpyLoop_ok A (src.take (A - 1)) dst 0 (by rw [List.length_take]; omega) hl
    have h3 : (src.take (A - 1)).length = A - 1 := by rw [List.length_take]; omega
    rw [Nat.zero_add, h3] at e h2
    rw [List.take_zero, List.nil_append] at h2
    refine ⟨d.set (A - 1) 0, ?_, by rw [List.length_set]; exact h1, List.mem_set (by omega) _, ?_⟩
    · have h4 : cpyLoop A dst 0 src = .ok (d, A - 1) := by
        rw [← List.take_append_drop (A - 1) src, cpyLoop_append, e, Out.bind_ok]
        exact cpyLoop_full A _ d (A - 1) (Nat.le_refl _)
      rw [strncpy, if_neg (by omega), h4, Out.bind_ok]
      dsimp only
      rw [poke, if_pos (by omega), Out.bind_ok]
      rfl
    · rw [List.set_eq_take_append_cons_drop, if_pos (by omega), h2, cstr_append (fun hm => h0 (List.mem_of_mem_take hm))]

theorem cfind_cases {A : Nat} (addr : Bytes) : ∀ (es : List CElem) (i : Nat), (∀ e ∈ es, e.OK A) →
    cfind addr es i = .ok none ∧ (∀ e ∈ es, (cview e).1 ≠ addr) ∨
    ∃ pre e post, es = pre ++ e :: post ∧ cfind addr es i = .ok (some (i + pre.length)) ∧ (cview e).1 = addr
  | [], i, _ => .inl ⟨rfl, by simp⟩
  | e :: es, i, h => by
    rw [cfind, if_pos (h e (List.mem_cons_self ..)).nul]
    by_cases hv : cstr e.addr = addr
    · exact .inr ⟨[], e, es, rfl, if_pos hv, hv⟩
    · rw [if_neg hv]
      rcases cfind_cases addr es (i + 1) (fun e he => h e (List.mem_cons_of_mem _ he)) with ⟨h1, h2⟩ | ⟨pre, x, post, h1, h2, h3⟩
      · refine .inl ⟨h1, fun x hx => ?_⟩
        rcases List.mem_cons.1 hx with rfl | hx
        · exact hv
        · exact h2 x hx
      · exact .inr ⟨e :: pre, x, post, by rw [h1]; rfl, by rw [h2, List.length_cons, Nat.add_assoc, Nat.add_comm 1], h3⟩

/-- What the cache holds. -/
def cviews (c : CCache) : List (Bytes × Bytes) := c.elems.map cview

/-- A cache of `n` elements. -/
structure CInv (A n : Nat) (c : CCache) : Prop where
  pos : 0 < n
  length : c.elems.length = n
  index : c.index < n
  elems : ∀ e ∈ c.elems, e.OK A

theorem cviews_length {A n : Nat} {c : CCache} (h : CInv A n c) : (cviews c).length = n := by
  unfold cviews; rw [List.length_map]; exact h.length

/-- The search of the cache. -/
theorem cfind_views {A n : Nat} {c : CCache} (h : CInv A n c) (addr : Bytes) :
    cfind addr c.elems 0 = .ok none ∧ (∀ v ∈ cviews c, v.1 ≠ addr) ∨
    ∃ i e, cfind addr c.elems 0 = .ok (some i) ∧ c.elems[i]? = some e ∧ i < n ∧ (cview e).1 = addr ∧ (cviews c)[i]? = some (cview e) := by
  rcases cfind_cases addr c.elems 0 h.elems with ⟨h1, h2⟩ | ⟨pre, e, post, h1, h2, h3⟩
  · refine .inl ⟨h1, fun v hv => ?_⟩
    obtain ⟨e, he, rfl⟩ := List.mem_map.1 hv
    exact h2 e he
  · have hl := h.length
    have hi : c.elems[pre.length]? = some e := by rw [h1, List.getElem?_append_right (Nat.le_refl _), Nat.sub_self]; rfl
    refine .inr ⟨pre.length, e, by rw [h2, Nat.zero_add], hi, ?_, h3, ?_⟩
    · rw [h1, List.length_append, List.length_cons] at hl
      omega
    · unfold cviews
      rw [List.getElem?_map, hi]
      rfl

/-- Storing into an element. -/
theorem put_ok {A n : Nat} {c : CCache} (h : CInv A n c) {i index : Nat} (hi : i < n) (hx : index < n) {addr d : Bytes}
    (ha : addr.length < A) (h0 : (0 : Byte) ∉ addr) (hd : d.length ≤ 2048) :
    ∃ c', cput A c i index addr d = .ok c' ∧ CInv A n c' ∧ cviews c' = (cviews c).set i (addr, d) ∧ c'.index = index := by
  have hil : i < c.elems.length := by rw [h.length]; exact hi
  have he := h.elems _ (List.getElem_mem hil)
  obtain ⟨a, e1, l1, z1, t1⟩ := strncpy_ok he.addr ha h0
  have hd2 := he.data
  have e2 : copyTo c.elems[i].data 0 d = .ok (d ++ c.elems[i].data.drop d.length) := by
    unfold copyTo
    rw [if_pos (by omega)]
    simp
  refine ⟨⟨c.elems.set i ⟨a, d ++ c.elems[i].data.drop d.length, d.length⟩, index⟩, ?_, ⟨h.pos, ?_, hx, ?_⟩, ?_, rfl⟩
  · rw [cput, List.getElem?_eq_getElem hil]
    dsimp only
    rw [e1, Out.bind_ok, e2, Out.bind_ok]
    rfl
  · rw [List.length_set]; exact h.length
  · intro e hm
    rcases List.mem_or_eq_of_mem_set hm with hm | rfl
    · exact h.elems e hm
    · refine ⟨l1, z1, ?_, hd⟩
      rw [List.length_append, List.length_drop]
      omega
  · unfold cviews
    rw [List.map_set]
    congr 1
    unfold cview
    rw [t1, List.take_left]

/-- What a call does. -/
inductive CDoes (c : CCache) (o : CSet) (c' : CCache) : Prop where
  | updates {i d} : o.lg = true → o.data.length ≤ 2048 → (cviews c)[i]? = some (o.addr, d) → cviews c' = (cviews c).set i (o.addr, o.data) →
      c'.index = c.index → CDoes c o c'
  | adds : o.lg = true → o.data.length ≤ 2048 → (∀ v ∈ cviews c, v.1 ≠ o.addr) → cviews c' = (cviews c).set c.index (o.addr, o.data) →
      c'.index = (c.index + 1) % c.elems.length → CDoes c o c'
  | fails : ¬ (o.lg = true ∧ o.data.length ≤ 2048) → c' = c → CDoes c o c'

theorem cset_does {A n : Nat} {c : CCache} (h : CInv A n c) (o : CSet) (ha : IsAddr A o.addr) :
    ∃ c' st, cset A c o.addr o.data o.lg o.lp = .ok (c', st) ∧ CInv A n c' ∧ CDoes c o c' := by
  unfold cset
  by_cases hl : o.lg = false
  · rw [if_pos hl]
    exact ⟨c, _, rfl, h, .fails (by rw [hl]; rintro ⟨h, -⟩; cases h) rfl⟩
  rw [if_neg hl]
  replace hl : o.lg = true := by cases hx : o.lg <;> simp_all
  by_cases hd : o.data.length ≤ 2048
  · have hn : ¬ o.data.length > DATA := by unfold DATA; omega
    rcases cfind_views h o.addr with ⟨e, h1⟩ | ⟨i, x, e, -, hi, h1, h2⟩
    · obtain ⟨c', e', hc, hv, hx⟩ := put_ok (index := (c.index + 1) % c.elems.length) h h.index
        (by rw [h.length]; exact Nat.mod_lt _ h.pos) ha.2.1 ha.2.2 hd
      refine ⟨c', if o.lp then none else some .EIO, ?_, hc, .adds hl hd h1 hv hx⟩
      rw [ccacheSet, if_neg hn, e, Out.bind_ok]
      dsimp only
      rw [e']
    · obtain ⟨c', e', hc, hv, hx⟩ := put_ok (index := c.index) h hi h.index ha.2.1 ha.2.2 hd
      refine ⟨c', if o.lp then none else some .EIO, ?_, hc, .updates (d := (cview x).2) hl hd ?_ hv hx⟩
      · rw [ccacheSet, if_neg hn, e, Out.bind_ok]
        dsimp only
        rw [e']
      · rw [h2, ← h1]
  · refine ⟨c, some (if o.lp then .EINVAL else .EIO), ?_, h, .fails (fun h => hd h.2) rfl⟩
    rw [ccacheSet, if_pos (by unfold DATA; omega)]

/-! ## The queue -/

/-- The elements from the oldest one on. -/
def turned (v : List α) (i : Nat) : List α := v.drop i ++ v.take i

theorem mem_turned {v : List α} {i : Nat} {x : α} : x ∈ turned v i ↔ x ∈ v := by
  unfold turned
  rw [List.mem_append, Or.comm, ← List.mem_append, List.take_append_drop]

theorem turned_map {f : α → β} {v : List α} {i : Nat} : turned (v.map f) i = (turned v i).map f := by
  unfold turned
  rw [List.map_append, List.map_drop, List.map_take]

theorem countP_turned {p : α → Bool} {v : List α} {i : Nat} : (turned v i).countP p = v.countP p := by
  unfold turned
  rw [List.countP_append, Nat.add_comm, ← List.countP_append, List.take_append_drop]

theorem turned_set {v : List α} {i : Nat} (h : i < v.length) (x : α) :
    turned (v.set i x) ((i + 1) % v.length) = (turned v i).tail ++ [x] := by
  unfold turned
  have ht : (v.drop i).tail = v.drop (i + 1) := List.tail_drop
  rw [List.tail_append_of_ne_nil (by rw [Ne, List.drop_eq_nil_iff]; omega), ht]
  rcases Nat.lt_or_ge (i + 1) v.length with h1 | h1
  · rw [Nat.mod_eq_of_lt h1, List.drop_set, if_pos (by omega), List.take_add_one, List.take_set,
      List.set_eq_of_length_le (by rw [List.length_take]; omega), List.getElem?_set_self h, List.append_assoc]
    rfl
  · have h2 : i + 1 = v.length := by omega
    rw [h2, Nat.mod_self, List.drop_zero, List.take_zero, List.append_nil, List.drop_length, List.nil_append,
      List.set_eq_take_append_cons_drop, if_pos h, h2, List.drop_length]

theorem set_eq_map {p : α → Bool} {x : α} : ∀ {v : List α} {i : Nat} {y : α}, v.countP p ≤ 1 → v[i]? = some y → p y = true →
    v.set i x = v.map (fun z => if p z then x else z)
  | [], i, y, _, h, _ => by cases h
  | z :: v, 0, y, hc, h, hp => by
    cases h
    rw [List.countP_cons, if_pos hp] at hc
    rw [List.set_cons_zero, List.map_cons, if_pos hp]
    congr 1
    have hz : v.countP p = 0 := by omega
    rw [List.countP_eq_zero] at hz
    symm
    exact (List.map_congr_left (g := id) (fun w hw => if_neg (hz w hw))).trans (List.map_id _)
  | z :: v, i + 1, y, hc, h, hp => by
    rw [List.getElem?_cons_succ] at h
    have hpos : 0 < v.countP p := List.countP_pos_iff.2 ⟨y, List.mem_of_getElem? h, hp⟩
    rw [List.countP_cons] at hc
    have hz : ¬ p z = true := by
      intro hz
      rw [if_pos hz] at hc
      omega
    rw [if_neg hz] at hc
    rw [List.set_cons_succ, List.map_cons, if_neg hz, set_eq_map hc h hp]

/-- The addresses in a queue differ and are not empty. -/
structure QOK (n : Nat) (q : List (Bytes × Bytes)) : Prop where
  length : q.length ≤ n
  nodup : (q.map Prod.fst).Nodup
  ne : ∀ v ∈ q, v.1 ≠ []

theorem nodup_count {a : Bytes} : ∀ {q : List (Bytes × Bytes)}, (q.map Prod.fst).Nodup → q.countP (fun v => decide (v.1 = a)) ≤ 1
  | [], _ => by simp
  | v :: q, h => by
    rw [List.map_cons, List.nodup_cons] at h
    have ih := nodup_count (a := a) h.2
    rw [List.countP_cons]
    by_cases hv : v.1 = a
    · have : q.countP (fun v => decide (v.1 = a)) = 0 := by
        rw [List.countP_eq_zero]
        intro w hw hd
        exact h.1 (List.mem_map.2 ⟨w, hw, (of_decide_eq_true hd).trans hv.symm⟩)
      rw [this]
      split <;> omega
    · rw [if_neg (by rw [decide_eq_true_iff]; exact hv)]
      omega

theorem queueSet_keys {n : Nat} {q : List (Bytes × Bytes)} {a d : Bytes} (h : a ∈ q.map Prod.fst) :
    (queueSet n q a d).map Prod.fst = q.map Prod.fst := by
  unfold queueSet
  rw [if_pos h, List.map_map]
  refine List.map_congr_left (fun v _ => ?_)
  show (if v.1 = a then (a, d) else v).1 = v.1
  split
  · rename_i h; exact h.symm
  · rfl

theorem queueSet_ok {n : Nat} {q : List (Bytes × Bytes)} (h : QOK n q) {a : Bytes} (ha : a ≠ []) (d : Bytes) :
    QOK n (queueSet n q a d) := by
  by_cases hm : a ∈ q.map Prod.fst
  · have hk := queueSet_keys (n := n) (d := d) hm
    refine ⟨?_, by rw [hk]; exact h.nodup, fun v hv => ?_⟩
    · have := congrArg List.length hk
      rw [List.length_map, List.length_map] at this
      rw [this]; exact h.length
    · have : v.1 ∈ q.map Prod.fst := by rw [← hk]; exact List.mem_map_of_mem hv
      obtain ⟨w, hw, e⟩ := List.mem_map.1 this
      rw [← e]; exact h.ne w hw
  · have hl := h.length
    unfold queueSet
    rw [if_neg hm]
    refine ⟨?_, ?_, fun v hv => ?_⟩
    · rw [List.length_drop, List.length_append, List.length_singleton]
      omega
    · rw [List.map_drop]
      refine List.Nodup.sublist (List.drop_sublist _ _) ?_
      rw [List.map_append, List.nodup_append]
      refine ⟨h.nodup, by simp, fun x hx y hy => ?_⟩
      rw [List.map_cons, List.map_nil, List.mem_singleton] at hy
      rintro rfl
      exact hm ((show x = a from hy) ▸ hx)
    · rcases List.mem_append.1 (List.mem_of_mem_drop hv) with hv | hv
      · exact h.ne v hv
      · rw [List.mem_singleton] at hv
        rw [hv]; exact ha

/-- The cache is the queue: from the oldest element on, empty elements and then the queue. -/
structure Queue (n : Nat) (q : List (Bytes × Bytes)) (c : CCache) : Prop where
  ok : QOK n q
  eq : turned (cviews c) c.index = List.replicate (n - q.length) ([], []) ++ q

theorem Queue.mem {n : Nat} {q : List (Bytes × Bytes)} {c : CCache} (h : Queue n q c) {v : Bytes × Bytes} (hv : v.1 ≠ []) :
    v ∈ cviews c ↔ v ∈ q := by
  rw [← mem_turned (i := c.index), h.eq, List.mem_append]
  constructor
  · rintro (h | h)
    · rw [List.mem_replicate] at h
      rw [h.2] at hv
      exact absurd rfl hv
    · exact h
  · exact .inr

theorem Queue.count {n : Nat} {q : List (Bytes × Bytes)} {c : CCache} (h : Queue n q c) {a : Bytes} (ha : a ≠ []) :
    (cviews c).countP (fun v => decide (v.1 = a)) ≤ 1 := by
  rw [← countP_turned (i := c.index), h.eq, List.countP_append, List.countP_replicate, if_neg, Nat.zero_add]
  · exact nodup_count h.ok.nodup
  · rw [decide_eq_true_iff]
    exact fun e => ha e.symm

theorem queue_step {A n : Nat} {q : List (Bytes × Bytes)} {c c' : CCache} {o : CSet} (hc : CInv A n c) (h : Queue n q c) (ha : o.addr ≠ [])
    (D : CDoes c o c') : Queue n (queueStep n q o) c' := by
  have hq := h.ok.length
  cases D with
  | updates hl hd hi hv hx =>
    rename_i i d
    rw [queueStep, if_pos ⟨hl, hd⟩]
    have hm : o.addr ∈ q.map Prod.fst :=
      List.mem_map.2 ⟨(o.addr, d), (h.mem (v := (o.addr, d)) ha).1 (List.mem_of_getElem? hi), rfl⟩
    refine ⟨queueSet_ok h.ok ha _, ?_⟩
    have hlen : (queueSet n q o.addr o.data).length = q.length := by
      have := congrArg List.length (queueSet_keys (n := n) (d := o.data) hm)
      rw [List.length_map, List.length_map] at this
      exact this
    rw [hx, hv, set_eq_map (h.count ha) hi (by rw [decide_eq_true_iff]), turned_map, h.eq, List.map_append, List.map_replicate, hlen]
    congr 1
    · rw [if_neg (by rw [decide_eq_true_iff]; exact fun e => ha e.symm)]
    · rw [queueSet, if_pos hm]
      refine List.map_congr_left (fun v _ => ?_)
      by_cases hv : v.1 = o.addr
      · rw [if_pos (by rw [decide_eq_true_iff]; exact hv), if_pos hv]
      · rw [if_neg (by rw [decide_eq_true_iff]; exact hv), if_neg hv]
  | adds hl hd hno hv hx =>
    rw [queueStep, if_pos ⟨hl, hd⟩]
    have hm : ¬ o.addr ∈ q.map Prod.fst := by
      intro hm
      obtain ⟨v, hv, e⟩ := List.mem_map.1 hm
      exact hno v ((h.mem (by rw [e]; exact ha)).2 hv) e
    refine ⟨queueSet_ok h.ok ha _, ?_⟩
    have hlen := cviews_length hc
    rw [hx, hv, hc.length, ← hlen, turned_set (by rw [hlen]; exact hc.index), h.eq, queueSet, if_neg hm, hlen]
    rcases Nat.lt_or_ge q.length n with h1 | h1
    · rw [show q.length + 1 - n = 0 by omega, List.drop_zero, List.length_append, List.length_singleton,
        show n - q.length = (n - (q.length + 1)) + 1 by omega, List.replicate_succ, List.cons_append, List.tail_cons, List.append_assoc]
    · have h2 : q.length = n := by omega
      have hp := hc.pos
      rw [show n - q.length = 0 by omega, show q.length + 1 - n = 1 by omega, List.replicate_zero, List.nil_append, List.drop_one,
        List.length_tail, List.length_append, List.length_singleton, show n - (q.length + 1 - 1) = 0 by omega, List.replicate_zero,
        List.nil_append, List.tail_append_of_ne_nil]
      rintro rfl
      rw [List.length_nil] at h2
      omega
  | fails hn he =>
    rw [queueStep, if_neg hn, he]
    exact h

theorem ccreate_queue {A n : Nat} (hA : 0 < A) {mem : Bool} {c : CCache} (h : ccreate A n mem = .ok c) : CInv A n c ∧ Queue n [] c := by
  unfold ccreate at h
  split at h
  · cases h
  split at h
  · cases h
  cases h
  rename_i hn _
  refine ⟨⟨by omega, List.length_replicate .., by show 0 < n; omega, fun e he => ?_⟩, ⟨⟨Nat.zero_le _, List.nodup_nil, by simp⟩, ?_⟩⟩
  · rw [(List.mem_replicate.1 he).2]; exact czero_ok hA
  · unfold turned cviews
    rw [List.drop_zero, List.take_zero, List.map_replicate, cview_zero, List.length_nil, Nat.sub_zero]

theorem crun_from {A n : Nat} : ∀ {h : List CSet} {q : List (Bytes × Bytes)} {c : CCache}, CInv A n c → Queue n q c →
    (∀ o ∈ h, IsAddr A o.addr) → ∃ c', crun A c h = .ok c' ∧ CInv A n c' ∧ Queue n (h.foldl (queueStep n) q) c'
  | [], q, c, hc, hq, _ => ⟨c, rfl, hc, hq⟩
  | o :: h, q, c, hc, hq, ha => by
    have hao := ha o (List.mem_cons_self ..)
    obtain ⟨c1, st, e, hc1, D⟩ := cset_does hc o hao
    obtain ⟨c', e', hc', hq'⟩ := crun_from (h := h) hc1 (queue_step hc hq hao.1 D) (fun x hx => ha x (List.mem_cons_of_mem _ hx))
    refine ⟨c', ?_, hc', hq'⟩
    rw [crun, e, Out.bind_ok]
    exact e'

theorem crun_append {A : Nat} {a b : List CSet} {c : CCache} : crun A c (a ++ b) = crun A c a >>= fun c => crun A c b := by
  induction a generalizing c with
  | nil => rfl
  | cons o a ih =>
    rw [List.cons_append, crun, crun]
    cases hx : cset A c o.addr o.data o.lg o.lp with
    | ok r => rw [Out.bind_ok, Out.bind_ok, ih]
    | err e => rfl
    | ub => rfl

/-! ## What is in the queue -/

theorem nodup_eq {a d e : Bytes} : ∀ {q : List (Bytes × Bytes)}, (q.map Prod.fst).Nodup → (a, d) ∈ q → (a, e) ∈ q → d = e
  | [], _, h, _ => by cases h
  | v :: q, hn, h1, h2 => by
    rw [List.map_cons, List.nodup_cons] at hn
    rcases List.mem_cons.1 h1 with rfl | h3
    · rcases List.mem_cons.1 h2 with h4 | h4
      · cases h4; rfl
      · exact absurd (List.mem_map.2 ⟨(a, e), h4, rfl⟩ : a ∈ q.map Prod.fst) hn.1
    · rcases List.mem_cons.1 h2 with rfl | h4
      · exact absurd (List.mem_map.2 ⟨(a, d), h3, rfl⟩ : a ∈ q.map Prod.fst) hn.1
      · exact nodup_eq hn.2 h3 h4

theorem CSet.Stores.eq {o : CSet} {a b d e : Bytes} (h1 : o.Stores a d) (h2 : o.Stores b e) : a = b ∧ d = e :=
  ⟨h1.1.symm.trans h2.1, h1.2.1.symm.trans h2.2.1⟩

theorem CLatest.snoc {h : List CSet} {a d : Bytes} (hl : CLatest h a d) {o : CSet} (ho : ∀ d', ¬ o.Stores a d') : CLatest (h ++ [o]) a d := by
  obtain ⟨x, y, z, e, h1, h2⟩ := hl
  refine ⟨x, y, z ++ [o], by rw [e]; simp, h1, fun w hw => ?_⟩
  rcases List.mem_append.1 hw with hw | hw
  · exact h2 w hw
  · rw [List.mem_singleton] at hw
    rw [hw]
    exact ho

theorem CLatest.new {h : List CSet} {a d : Bytes} {o : CSet} (ho : o.Stores a d) : CLatest (h ++ [o]) a d :=
  ⟨h, o, [], rfl, ho, by simp⟩

theorem CLatest.last {h : List CSet} {a d : Bytes} {o : CSet} (hl : CLatest (h ++ [o]) a d) :
    o.Stores a d ∨ (CLatest h a d ∧ ∀ d', ¬ o.Stores a d') := by
  obtain ⟨x, y, z, e, h1, h2⟩ := hl
  rcases List.eq_nil_or_concat z with rfl | ⟨z', w, rfl⟩
  · have := List.append_inj' e rfl
    cases this.2
    exact .inl h1
  · rw [List.concat_eq_append] at e h2
    rw [← List.cons_append, ← List.append_assoc] at e
    have := List.append_inj' e rfl
    cases this.2
    exact .inr ⟨⟨x, y, z', this.1, h1, fun w hw => h2 w (List.mem_append_left _ hw)⟩, h2 o (by simp)⟩

theorem nodup_length_le {a b : List Bytes} (hn : a.Nodup) (hs : ∀ x ∈ a, x ∈ b) : a.length ≤ b.length :=
  List.Nodup.length_le_of_subset hn hs

/-- What is in the queue after a history. -/
structure QHolds (n : Nat) (h : List CSet) (q : List (Bytes × Bytes)) : Prop where
  ok : QOK n q
  latest : ∀ a d, (a, d) ∈ q → CLatest h a d
  keys : ∀ v ∈ q, ∃ o ∈ h, o.addr = v.1
  complete : AtMost n h → ∀ a d, CLatest h a d → (a, d) ∈ q

theorem AtMost.init {n : Nat} {h : List CSet} {o : CSet} (ha : AtMost n (h ++ [o])) : AtMost n h := by
  obtain ⟨l, h1, h2⟩ := ha
  exact ⟨l, h1, fun x hx => h2 x (List.mem_append_left _ hx)⟩

theorem qholds_step {n : Nat} (hn : 0 < n) {h : List CSet} {q : List (Bytes × Bytes)} (H : QHolds n h q) {o : CSet} (ha : o.addr ≠ []) :
    QHolds n (h ++ [o]) (queueStep n q o) := by
  have hq := H.ok.length
  have hkeys : ∀ v ∈ q, ∃ x ∈ h ++ [o], x.addr = v.1 := fun v hv =>
    (H.keys v hv).elim fun x hx => ⟨x, List.mem_append_left _ hx.1, hx.2⟩
  unfold queueStep
  by_cases hs : o.lg = true ∧ o.data.length ≤ 2048
  · rw [if_pos hs]
    have ho : o.Stores o.addr o.data := ⟨rfl, rfl, hs.1, hs.2⟩
    have hext : ∀ a d, a ≠ o.addr → CLatest h a d → CLatest (h ++ [o]) a d := fun a d hne hl =>
      hl.snoc (fun d' hd' => hne (hd'.eq ho).1)
    refine ⟨queueSet_ok H.ok ha _, ?_, ?_, ?_⟩
    · intro a d hm
      unfold queueSet at hm
      split at hm
      · obtain ⟨v, hv, e⟩ := List.mem_map.1 hm
        split at e
        · cases e
          exact .new ho
        · rename_i hne
          subst e
          exact hext a d hne (H.latest a d hv)
      · rename_i hnk
        rcases List.mem_append.1 (List.mem_of_mem_drop hm) with hm | hm
        · exact hext a d (fun e => hnk (e ▸ List.mem_map.2 ⟨(a, d), hm, rfl⟩)) (H.latest a d hm)
        · rw [List.mem_singleton] at hm
          cases hm
          exact .new ho
    · intro v hm
      unfold queueSet at hm
      split at hm
      · obtain ⟨w, hw, e⟩ := List.mem_map.1 hm
        split at e
        · subst e
          exact ⟨o, by simp, rfl⟩
        · subst e
          exact hkeys w hw
      · rcases List.mem_append.1 (List.mem_of_mem_drop hm) with hm | hm
        · exact hkeys v hm
        · rw [List.mem_singleton] at hm
          subst hm
          exact ⟨o, by simp, rfl⟩
    · intro hat a d hl
      unfold queueSet
      split
      · rename_i hk
        rcases hl.last with h1 | ⟨h1, h2⟩
        · obtain ⟨rfl, rfl⟩ := h1.eq ho
          obtain ⟨v, hv, e⟩ := List.mem_map.1 hk
          exact List.mem_map.2 ⟨v, hv, if_pos e⟩
        · refine List.mem_map.2 ⟨(a, d), H.complete hat.init a d h1, if_neg ?_⟩
          rintro rfl
          exact h2 _ ho
      · rename_i hk
        rcases hl.last with h1 | ⟨h1, h2⟩
        · obtain ⟨rfl, rfl⟩ := h1.eq ho
          rw [List.drop_append_of_le_length (by omega)]
          exact List.mem_append_right _ (List.mem_singleton.2 rfl)
        · have hroom : q.length + 1 ≤ n := by
            obtain ⟨l, hl1, hl2⟩ := hat
            have : (o.addr :: q.map Prod.fst).length ≤ l.length := by
              refine nodup_length_le (List.nodup_cons.2 ⟨hk, H.ok.nodup⟩) (fun x hx => ?_)
              rcases List.mem_cons.1 hx with rfl | hx
              · exact hl2 o (by simp)
              · obtain ⟨v, hv, rfl⟩ := List.mem_map.1 hx
                obtain ⟨y, hy, e⟩ := hkeys v hv
                rw [← e]
                exact hl2 y hy
            rw [List.length_cons, List.length_map] at this
            omega
          rw [show q.length + 1 - n = 0 by omega, List.drop_zero]
          exact List.mem_append_left _ (H.complete hat.init a d h1)
  · rw [if_neg hs]
    have hno : ∀ a d', ¬ o.Stores a d' := fun a d' h => hs ⟨h.2.2.1, by rw [h.2.1]; exact h.2.2.2⟩
    refine ⟨H.ok, fun a d hm => (H.latest a d hm).snoc (hno a), hkeys, fun hat a d hl => ?_⟩
    rcases hl.last with h1 | ⟨h1, -⟩
    · exact absurd h1 (hno _ _)
    · exact H.complete hat.init a d h1

theorem qholds_from {n : Nat} (hn : 0 < n) : ∀ {h2 h1 : List CSet} {q : List (Bytes × Bytes)}, QHolds n h1 q → (∀ o ∈ h2, o.addr ≠ []) →
    QHolds n (h1 ++ h2) (h2.foldl (queueStep n) q)
  | [], h1, q, H, _ => by rw [List.append_nil]; exact H
  | o :: h2, h1, q, H, ha => by
    have := qholds_from hn (h2 := h2) (qholds_step hn H (ha o (List.mem_cons_self ..))) (fun x hx => ha x (List.mem_cons_of_mem _ hx))
    rw [List.append_assoc] at this
    exact this

theorem queue_holds {n : Nat} (hn : 0 < n) {h : List CSet} (ha : ∀ o ∈ h, o.addr ≠ []) : QHolds n h (queue n h) :=
  qholds_from hn (h1 := []) ⟨⟨Nat.zero_le _, List.nodup_nil, by simp⟩, by simp, by simp, fun _ a d hl => by
    obtain ⟨x, y, z, e, -⟩ := hl
    exact absurd (congrArg List.length e) (by simp)⟩ ha

end FreeCoAP.Tls
