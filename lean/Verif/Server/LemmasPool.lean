import Verif.Server.LemmasHist
import Verif.Server.LemmasGen
import Verif.Msg.LemmasHeap

/-! # The large pool and the bodies of transfers -/

namespace FreeCoAP.Server

open FreeCoAP.Msg
open FreeCoAP.Msg.Heap (Clean held_append Clean_append filter_perm_cons)
open FreeCoAP.Mem (Pool Call Rel held specAlloc)

/-- The pool and its log agree, and the buffers handed out are `ow`. -/
structure PInv (base num len : Nat) (L : Large) (ow : List Nat) : Prop where
  rel : Rel L.pool base num len (held [] L.log)
  perm : (held [] L.log).Perm ow
  clean : Clean [] L.log

variable {base num len : Nat}

theorem PInv.of_perm {L : Large} {ow ow' : List Nat} (h : PInv base num len L ow) (hp : ow.Perm ow') : PInv base num len L ow' :=
  ⟨h.rel, h.perm.trans hp, h.clean⟩

theorem PInv.alloc_none {L : Large} {ow : List Nat} (h : PInv base num len L ow) {l : Nat} {L' : Large}
    (e : L.alloc l = (none, L')) : PInv base num len L' ow := by
  obtain ⟨h1, h2⟩ := h.rel.alloc l
  unfold Large.alloc at e
  simp only [Prod.mk.injEq] at e
  obtain ⟨e1, rfl⟩ := e
  rw [← h1, e1] at h2
  refine ⟨?_, ?_, ?_⟩
  · simp only [e1, held_append, held]; exact h2
  · simp only [e1, held_append, held]; exact h.perm
  · simp only [e1, Clean_append, Clean, and_true]; exact h.clean

theorem PInv.alloc_some {L : Large} {ow : List Nat} (h : PInv base num len L ow) {l p : Nat} {L' : Large}
    (e : L.alloc l = (some p, L')) : PInv base num len L' (p :: ow) := by
  obtain ⟨h1, h2⟩ := h.rel.alloc l
  unfold Large.alloc at e
  simp only [Prod.mk.injEq] at e
  obtain ⟨e1, rfl⟩ := e
  rw [← h1, e1] at h2
  refine ⟨?_, ?_, ?_⟩
  · simp only [e1, held_append, held]; exact h2
  · simp only [e1, held_append, held]; exact h.perm.cons p
  · simp only [e1, Clean_append, Clean, and_true]; exact h.clean

theorem PInv.free {L : Large} {ow : List Nat} {p : Nat} (h : PInv base num len L (p :: ow)) :
    PInv base num len (L.free p) ow := by
  refine ⟨?_, ?_, ?_⟩
  · simpa only [Large.free, held_append, held] using h.rel.free p
  · simp only [Large.free, held_append, held]
    exact filter_perm_cons h.rel.nodup h.perm
  · simp only [Large.free, Clean_append, Clean, and_true]
    exact ⟨h.clean, h.perm.mem_iff.2 (by simp)⟩

theorem PInv.clear {L : Large} {b : Blk} {ow : List Nat} (h : PInv base num len L (own b ++ ow)) :
    PInv base num len (clearBlockwise b L).2 ow := by
  unfold clearBlockwise
  unfold own at h
  split
  · rename_i p hp
    rw [hp] at h
    exact h.free
  · rename_i hp
    rw [hp] at h
    exact h

theorem own_none : own Blk.none = [] := rfl
theorem own_zero : own Trans.zero.blk = [] := rfl
theorem own_shrink (b : Blk) (o1 o2 : Option Block) : own (shrink b o1 o2) = own b := rfl

/-- A transfer is in progress exactly if a buffer is held. -/
def Holding (b : Blk) : Prop := b.type = .regular ↔ b.body = none

theorem Holding.none : Holding Blk.none := by simp [Holding, Blk.none]

/-- What is kept by the functions on transfers. -/
structure Keeps (base num len : Nat) (ow : List Nat) (x : BRes) : Prop where
  inv : PInv base num len x.large (own x.blk ++ ow)
  hold : Holding x.blk

theorem Keeps.cleared {b : Blk} {L : Large} {ow : List Nat} {resp : Msg} {e : Option Err} {rx : List (Nat × Bytes)}
    (h : PInv base num len L (own b ++ ow)) : Keeps base num len ow ⟨Blk.none, (clearBlockwise b L).2, resp, e, rx⟩ :=
  ⟨h.clear, Holding.none⟩

theorem Next2.keeps {opMem payMem : Bool} {b : Blk} {L : Large} {req resp : Msg} {num2 : Nat} {uri : Bytes} {x : BRes}
    {ow : List Nat} (h : Next2 opMem payMem b L req resp num2 uri x) (hi : PInv base num len L (own b ++ ow)) (hh : Holding b) :
    Keeps base num len ow x := by
  cases h with
  | bad => exact .cleared hi
  | fail => exact .cleared hi
  | more => exact ⟨hi, hh⟩
  | last => exact .cleared hi

theorem Next1.keeps {env : Env} {again : Blk → Large → Msg → Out BRes} {b : Blk} {L : Large} {req resp : Msg} {num1 : Nat}
    {more1 : Bool} {uri : Bytes} {x : BRes} {ow : List Nat} (h : Next1 env again b L req resp num1 more1 uri x)
    (hi : PInv base num len L (own b ++ ow)) (hh : Holding b)
    (hag : ∀ b L resp x, PInv base num len L (own b ++ ow) → Holding b → again b L resp = .ok x → Keeps base num len ow x) :
    Keeps base num len ow x := by
  cases h with
  | bad => exact .cleared hi
  | order => exact .cleared hi
  | large => exact .cleared hi
  | fail => exact .cleared hi
  | more _ _ _ _ _ _ _ _ _ _ p bytes bytes' hb hw =>
    have e : own b = [p] := by simp only [own, hb]
    rw [e] at hi
    refine ⟨hi, ?_⟩
    unfold Holding at hh ⊢
    rw [hb] at hh
    simpa using hh
  | whole _ _ _ _ _ _ _ _ val _ p bytes bytes' hb _ id _ rr hr _ x hx =>
    have e : own b = [p] := by simp only [own, hb]
    rcases hx with ⟨e, he, rfl⟩ | ⟨he, hne, rfl⟩ | ⟨he, h2, hbe, hx⟩ | ⟨he, h2, hbe, ⟨hd, rfl⟩ | ⟨hd, rfl⟩⟩
    · exact .cleared hi
    · exact .cleared hi
    · have := hag _ _ _ x (by rw [e] at hi; exact hi) (by unfold Holding; constructor <;> intro h <;> revert h <;> simp; split <;> simp) hx
      exact ⟨this.inv, this.hold⟩
    · exact .cleared hi
    · exact .cleared hi

theorem NextStep.keeps {env : Env} {opMem : Bool} {again : Blk → Large → Msg → Out BRes} {b : Blk} {L : Large}
    {req resp : Msg} {x : BRes} {ow : List Nat} (h : NextStep env opMem again b L req resp x)
    (hi : PInv base num len L (own b ++ ow)) (hh : Holding b)
    (hag : ∀ b L resp x, PInv base num len L (own b ++ ow) → Holding b → again b L resp = .ok x → Keeps base num len ow x) :
    Keeps base num len ow x := by
  cases h with
  | badOp => exact .cleared hi
  | regular => exact ⟨hi, hh⟩
  | two _ _ _ _ _ _ hx => exact hx.keeps hi hh
  | one _ _ _ _ _ _ hx => exact hx.keeps hi hh hag

theorem nextBlock_keeps {env : Env} {b : Blk} {L : Large} {req resp : Msg} {x : BRes} {ow : List Nat}
    (h : nextBlock env b L req resp = .ok x) (hi : PInv base num len L (own b ++ ow)) (hh : Holding b) :
    Keeps base num len ow x := by
  unfold nextBlock at h
  refine (nextBlockStep_cases h).keeps hi hh ?_
  intro b L resp x hi hh h
  exact (nextBlockStep_cases h).keeps hi hh (fun _ _ _ _ _ _ h => by cases h)

theorem handleBlockwise_keeps {env : Env} {b : Blk} {L : Large} {req resp : Msg} {b1 b2 : Nat} {body : Bytes} {bodyLen : Nat}
    {rx : Option Nat} {x : BRes} {ow : List Nat} (h : handleBlockwise env b L req resp b1 b2 body bodyLen rx = .ok x)
    (hi : PInv base num len L (own b ++ ow)) : Keeps base num len ow x := by
  unfold handleBlockwise at h
  simp only at h
  have hc := hi.clear
  split at h
  · cases h; exact ⟨hc, .none⟩
  split at h
  · cases h; exact ⟨hc, .none⟩
  split at h
  · cases h; exact ⟨hc, .none⟩
  split at h
  · rename_i L' ha; cases h; exact ⟨hc.alloc_none ha, .none⟩
  rename_i p L' ha
  have hal := hc.alloc_some ha
  split at h
  · split at h
    · cases h
    · cases h
    split at h
    · cases h
    · cases h
    split at h
    · cases h
    · cases h
    exact nextBlock_keeps h hal (by simp [Holding])
  split at h
  · split at h
    · cases h; exact ⟨PInv.clear (ow := ow) (b := { Blk.none with body := some (p, List.replicate L'.pool.len 0), bodyLen := L'.pool.len }) hal, .none⟩
    split at h
    · cases h
    · cases h
    exact nextBlock_keeps h hal (by unfold Holding; constructor <;> intro h <;> revert h <;> simp; split <;> simp)
  · rw [clearCode_eq (by decide) (by decide)] at h
    cases h
    exact ⟨PInv.clear (ow := ow) (b := { Blk.none with body := some (p, List.replicate L'.pool.len 0), bodyLen := L'.pool.len }) hal, .none⟩

theorem generate_keeps {env : Env} {t : Trans} {L : Large} {m : Msg} {r : BRes} {o : List Obs} {ow : List Nat}
    (h : generate env t L m = .ok (r, o)) (hi : PInv base num len L (own t.blk ++ ow)) (hh : Holding t.blk) :
    Keeps base num len ow r := by
  unfold generate at h
  split at h
  · split at h
    · cases h; exact ⟨hi, hh⟩
    · cases h
    · cases h
  split at h
  · split at h
    · rename_i r' hr
      cases h
      exact nextBlock_keeps hr hi hh
    · cases h
    · cases h
  split at h
  · cases h; exact ⟨hi, hh⟩
  · split at h
    · rename_i r' hr
      cases h
      exact handleBlockwise_keeps hr hi
    · cases h
    · cases h

/-- The same for a transaction. -/
structure KeepsT (base num len : Nat) (ow : List Nat) (L : Large) (t : Trans) : Prop where
  inv : PInv base num len L (own t.blk ++ ow)
  hold : Holding t.blk

theorem KeepsT.destroyed {t : Trans} {L : Large} {ow : List Nat} (h : PInv base num len L (own t.blk ++ ow)) :
    KeepsT base num len ow (destroy t L).2 Trans.zero := ⟨h.clear, .none⟩

theorem Outcome.keeps {sx : Bool} {sepList : List Bytes} {env : Env} {t : Trans} {L : Large} {id : Nat} {d : Bytes} {r : TRes}
    {ow : List Nat} (h : Outcome sx sepList env t L id d r) (hk : KeepsT base num len ow L t) :
    KeepsT base num len ow r.large r.trans := by
  cases h with
  | again => exact hk
  | lost => exact .destroyed hk.inv
  | dupAck => exact ⟨hk.inv, hk.hold⟩
  | dupResp => exact ⟨hk.inv, hk.hold⟩
  | dupFail => exact .destroyed hk.inv
  | dupNon => exact ⟨hk.inv, hk.hold⟩
  | acked => exact ⟨hk.inv, hk.hold⟩
  | ackFail => exact .destroyed hk.inv
  | rejected => exact .destroyed hk.inv
  | ackLost => exact .destroyed hk.inv
  | genFail m _ _ _ r o2 hg =>
    have := generate_keeps (base := base) (num := num) (len := len) (ow := ow) hg hk.inv hk.hold
    exact ⟨this.inv.clear, .none⟩
  | sendFail m _ _ _ r o2 hg =>
    have := generate_keeps (base := base) (num := num) (len := len) (ow := ow) hg hk.inv hk.hold
    exact ⟨this.inv.clear, .none⟩
  | done m _ _ _ r o2 hg =>
    have := generate_keeps (base := base) (num := num) (len := len) (ow := ow) hg hk.inv hk.hold
    exact ⟨this.inv, this.hold⟩

theorem TimerOutcome.keeps {env : Env} {t : Trans} {L : Large} {id : Nat} {r : TRes} {ow : List Nat}
    (h : TimerOutcome env t L id r) (hk : KeepsT base num len ow L t) : KeepsT base num len ow r.large r.trans := by
  cases h with
  | expired => exact .destroyed hk.inv
  | noTimer => exact ⟨hk.inv, hk.hold⟩
  | resent => exact ⟨hk.inv, hk.hold⟩
  | noSend => exact ⟨hk.inv, hk.hold⟩

theorem owned_split {ts : List Trans} {i : Nat} {t : Trans} (h : ts[i]? = some t) :
    ∃ rest, (owned ts).Perm (own t.blk ++ rest) ∧ ∀ t', (owned (ts.set i t')).Perm (own t'.blk ++ rest) := by
  induction ts generalizing i with
  | nil => simp at h
  | cons x xs ih =>
    cases i with
    | zero =>
      simp at h
      subst h
      exact ⟨owned xs, .refl _, fun t' => .refl _⟩
    | succ i =>
      simp at h
      obtain ⟨rest, h1, h2⟩ := ih h
      refine ⟨own x.blk ++ rest, ?_, fun t' => ?_⟩
      · refine (h1.append_left (own x.blk)).trans ?_
        rw [← List.append_assoc, ← List.append_assoc]
        exact List.perm_append_comm.append_right _
      · refine ((h2 t').append_left (own x.blk)).trans ?_
        rw [← List.append_assoc, ← List.append_assoc]
        exact List.perm_append_comm.append_right _

/-- The invariant of the whole server. -/
structure SInv (base num len : Nat) (s : Srv) : Prop where
  inv : PInv base num len s.large (owned s.trans)
  hold : ∀ t ∈ s.trans, Holding t.blk

theorem SInv.get {s : Srv} (h : SInv base num len s) {i : Nat} {t : Trans} (hi : s.trans[i]? = some t) :
    ∃ rest, KeepsT base num len rest s.large t ∧
      ∀ (L : Large) (t' : Trans), KeepsT base num len rest L t' → ∀ s' : Srv, s'.large = L → s'.trans = s.trans.set i t' →
        SInv base num len s' := by
  obtain ⟨rest, h1, h2⟩ := owned_split hi
  refine ⟨rest, ⟨h.inv.of_perm h1, h.hold _ (List.mem_of_getElem? hi)⟩, fun L t' hk s' e1 e2 => ⟨?_, ?_⟩⟩
  · rw [e1, e2]
    exact hk.inv.of_perm (h2 t').symm
  · rw [e2]
    intro u hu
    rcases List.mem_or_eq_of_mem_set hu with h' | rfl
    · exact h.hold _ h'
    · exact hk.hold

/-- After a place was made the transaction there is empty. -/
theorem SInv.makeRoom {s : Srv} (h : SInv base num len s) (hT : Tidy s) :
    SInv base num len (makeRoom s).2 ∧ ∃ t, (Server.makeRoom s).2.trans[(Server.makeRoom s).1]? = some t ∧ t.blk = Blk.none := by
  have hlt := makeRoom_lt hT.len
  unfold Server.makeRoom at hlt ⊢
  split at hlt
  · rename_i i hi
    refine ⟨h, ?_⟩
    simp only
    unfold findEmpty at hi
    rw [List.findIdx?_eq_some_iff_getElem] at hi
    obtain ⟨hlt, hact, -⟩ := hi
    refine ⟨_, List.getElem?_eq_getElem hlt, ?_⟩
    have := hT.zeroed _ _ (List.getElem?_eq_getElem hlt) (by simpa using hact)
    rw [this]
    rfl
  · rename_i hn
    simp only at hlt ⊢
    cases hg : s.trans[findOldest s.trans]? with
    | none =>
      rw [hg] at hlt
      simp only at hlt
      rw [List.getElem?_eq_none_iff] at hg
      omega
    | some t =>
      rw [hg] at hlt
      simp only at hlt ⊢
      obtain ⟨rest, hk, hput⟩ := h.get hg
      refine ⟨hput _ Trans.zero (.destroyed hk.inv) _ rfl rfl, Trans.zero, ?_, rfl⟩
      simp only [destroy]
      rw [List.getElem?_set_self]
      exact hlt

theorem StepRel.sinv {sx : Bool} {s s' : Srv} {env : Env} {ev : Event} {o : List Obs} {e : Option Err}
    (h : StepRel sx s env ev s' o e) (hT : Tidy s) (hs : SInv base num len s) : SInv base num len s' := by
  cases h with
  | noAccept => exact hs
  | noTimer => exact hs
  | appId => exact ⟨hs.inv, hs.hold⟩
  | known a d i t r h0 hi ha hd hf ho =>
    obtain ⟨rest, hk, hput⟩ := hs.get hi
    exact hput _ _ (ho.keeps hk) _ rfl rfl
  | timer i t r hi ha hr ho =>
    obtain ⟨rest, hk, hput⟩ := hs.get hi
    exact hput _ _ (ho.keeps hk) _ rfl rfl
  | noCreate =>
    obtain ⟨h1, t, h2, h3⟩ := hs.makeRoom hT
    obtain ⟨rest, hk, hput⟩ := h1.get h2
    refine hput (Server.makeRoom s).2.large Trans.zero ⟨?_, .none⟩ _ rfl rfl
    have := hk.inv
    rw [h3] at this
    exact this
  | new a d r h0 hf he hi ho =>
    obtain ⟨h1, t, h2, h3⟩ := hs.makeRoom hT
    obtain ⟨rest, hk, hput⟩ := h1.get h2
    have hk' : KeepsT base num len rest (Server.makeRoom s).2.large (fresh env a) := by
      refine ⟨?_, .none⟩
      have := hk.inv
      rw [h3] at this
      exact this
    refine hput _ _ (ho.keeps hk') _ rfl ?_
    simp only
    exact ((makeRoom_eq s).2.2.2 _).symm

theorem init_sinv {W : Nat} {st st' : Mem.Sys} {r1 r2 : Option Nat} {pool : Pool} {id : Nat} {sepList : List Bytes}
    (h : Mem.create W st r1 r2 num len = (.ok pool, st')) : ∃ base, SInv base num len (init id sepList pool) := by
  have := Mem.create_rel h
  refine ⟨_, ⟨⟨this, ?_, trivial⟩, ?_⟩⟩
  · simp only [init]
    have : owned (List.replicate NUM_TRANS Trans.zero) = [] := by decide
    rw [this]
    exact .refl _
  · intro t ht
    simp only [init] at ht
    rw [List.eq_of_mem_replicate ht]
    exact .none

theorem run_sinv {sx : Bool} {s0 s : Srv} {evs : List (Env × Event)} {tr : List (List Obs)} (hT : Tidy s0)
    (h0 : SInv base num len s0) (h : run sx s0 evs = .ok (s, tr)) : SInv base num len s :=
  (run_induction (P := fun _ s _ => Tidy s ∧ SInv base num len s) ⟨hT, h0⟩
    (fun _ _ _ _ _ _ _ _ hP hs => ⟨hs.tidy hP.1, hs.sinv hP.1 hP.2⟩) _ _ _ h).2

theorem destroyAll_pinv {ts : List Trans} {L : Large} {ow : List Nat} (hz : Zeroed ts)
    (h : PInv base num len L (owned ts ++ ow)) : PInv base num len (destroyAll ts L).2 ow := by
  induction ts generalizing L with
  | nil => exact h
  | cons t ts ih =>
    unfold destroyAll
    have hz' : Zeroed ts := fun i u hu => hz (i + 1) u (by simpa using hu)
    have h' : PInv base num len L (own t.blk ++ (owned ts ++ ow)) := by
      rw [← List.append_assoc]; exact h
    split
    · exact ih hz' h'.clear
    · rename_i ha
      have := hz 0 t rfl (by simpa using ha)
      refine ih hz' ?_
      rw [this] at h'
      exact h'

theorem length_le_of_subset : ∀ {l k : List Nat}, l.Nodup → l ⊆ k → l.length ≤ k.length
  | [], _, _, _ => Nat.zero_le _
  | a :: l, k, hn, hs => by
    rw [List.nodup_cons] at hn
    have ha : a ∈ k := hs (by simp)
    have hsub : l ⊆ k.erase a := by
      intro x hx
      have hne : x ≠ a := by rintro rfl; exact hn.1 hx
      exact (List.mem_erase_of_ne hne).2 (hs (by simp [hx]))
    have ih := length_le_of_subset hn.2 hsub
    have := List.length_erase_of_mem ha
    have : 0 < k.length := List.length_pos_of_mem ha
    simp only [List.length_cons]
    omega

theorem PInv.room {L : Large} {ow : List Nat} (h : PInv base num len L ow) (hlt : ow.length < num) {l : Nat} (hl : l ≤ len) :
    ∃ p L', L.alloc l = (some p, L') := by
  obtain ⟨h1, -⟩ := h.rel.alloc l
  have hs : specAlloc base num len (held [] L.log) l ≠ none := by
    unfold specAlloc
    rw [if_neg (by omega)]
    intro hn
    rw [List.find?_eq_none] at hn
    have hsub : Mem.slots base num len ⊆ held [] L.log := by
      intro p hp
      have := hn p hp
      simpa using this
    have hnd : (Mem.slots base num len).Nodup := by
      unfold Mem.slots
      rw [List.nodup_iff_pairwise_ne, List.pairwise_map]
      refine List.Pairwise.imp ?_ List.nodup_range
      intro i j hij he
      exact hij (Mem.addr_inj h.rel.len_pos he)
    have := length_le_of_subset hnd hsub
    rw [h.perm.length_eq] at this
    simp [Mem.slots] at this
    omega
  rw [← h1] at hs
  cases ha : (L.pool.alloc l).1 with
  | none => exact absurd ha hs
  | some p => exact ⟨p, _, by unfold Large.alloc; rw [ha]⟩

theorem own_length (b : Blk) : (own b).length ≤ 1 := by
  unfold own; split <;> simp

theorem owned_length (ts : List Trans) : (owned ts).length ≤ ts.length := by
  induction ts with
  | nil => simp [owned]
  | cons t ts ih =>
    have := own_length t.blk
    unfold owned at ih ⊢
    rw [List.flatMap_cons, List.length_append, List.length_cons]
    omega

end FreeCoAP.Server
