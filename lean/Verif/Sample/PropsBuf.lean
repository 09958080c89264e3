import Verif.Sample.SpecBuf
import Verif.Client.PropsBuf
import Verif.Server.LemmasPool

/-! # What the sample clients take and give back (C137) -/

namespace FreeCoAP.Sample.Buf

open FreeCoAP.Msg.Heap (Heap HMsg Geo J Inv Le Clean Created addOp setPayload destroy opInsert opInsertAfter HOp)
open FreeCoAP.Mem (Pool Call held)

variable {g : Geo} {os om : List Nat} {h0 h : Heap}

/-- What a call leaves: the messages it did not destroy still have their buffers. -/
def Kept (g : Geo) (h0 : Heap) (os om : List Nat) (r : Ret) : Prop :=
  J g h0 r.heap (r.left.flatMap HMsg.ownSmall ++ os) (r.left.flatMap HMsg.ownMedium ++ om)

/-- The local messages have no buffers. -/
def Empty (r : Ret) : Prop := r.left.flatMap HMsg.ownSmall = [] ∧ r.left.flatMap HMsg.ownMedium = []

theorem drop_kept {e : Err} {req : HMsg} {ev : List Ev} (i : J g h0 h (req.ownSmall ++ os) (req.ownMedium ++ om)) :
    Kept g h0 os om (drop e h req ev) := i.destroy.1

theorem dropBoth_kept {st : Option Err} {req resp : HMsg} {ev : List Ev}
    (i : J g h0 h (resp.ownSmall ++ (req.ownSmall ++ os)) (resp.ownMedium ++ (req.ownMedium ++ om))) :
    Kept g h0 os om (dropBoth st h req resp ev) := i.destroy.1.destroy.1

theorem drop_empty {e : Err} {req : HMsg} {ev : List Ev} : Empty (drop e h req ev) := ⟨rfl, rfl⟩

theorem dropBoth_empty {st : Option Err} {req resp : HMsg} {ev : List Ev} : Empty (dropBoth st h req resp ev) := ⟨rfl, rfl⟩

theorem addPath_inv (hg : g.Apart) {S : Nat} : ∀ {vs : List Bytes} {h : Heap} {m : HMsg},
    J g h0 h (m.ownSmall ++ os) (m.ownMedium ++ om) →
    match addPath S h m vs with
    | (_, m', h') => J g h0 h' (m'.ownSmall ++ os) (m'.ownMedium ++ om)
  | [], _, _, i => i
  | v :: vs, h, m, i => by
    unfold addPath
    have j := i.addOp hg S 11 v
    revert j
    rcases addOp S h m 11 v with ⟨st, m', h'⟩
    intro j
    cases st with
    | ok u => exact addPath_inv hg j.1
    | err e => exact j.1
    | ub => exact j.1

theorem length_opInsertAfter (op : HOp) : ∀ (l : List HOp) (prev : HOp), (opInsertAfter op prev l).length = l.length + 2
  | [], _ => rfl
  | next :: rest, prev => by
    unfold opInsertAfter
    split
    · simp
    · simp [length_opInsertAfter op rest next]

theorem length_opInsert (op : HOp) (l : List HOp) : (opInsert op l).length = l.length + 1 := by
  unfold opInsert
  split
  · rfl
  · split
    · simp
    · simp [length_opInsertAfter]

/-- Every option that was added has its structure in the small pool. -/
theorem addPath_length {S : Nat} : ∀ {vs : List Bytes} {h : Heap} {m m' : HMsg} {h' : Heap},
    addPath S h m vs = (.ok (), m', h') → m'.ownSmall.length = m.ownSmall.length + vs.length
  | [], _, _, _, _, e => by cases e; rfl
  | v :: vs, h, m, m', h', e => by
    unfold addPath at e
    split at e
    · rename_i x m1 h1 ha
      have l := addPath_length e
      have : m1.ownSmall.length = m.ownSmall.length + 1 := by
        unfold addOp at ha
        split at ha
        · cases ha
        · cases ha; simp [HMsg.ownSmall, length_opInsert]
      simp only [List.length_cons]
      omega
    · rename_i hne
      exact absurd e (hne () m' h')

theorem converse_kept (hg : g.Apart) {S : Nat} {sx : Bool} {req : HMsg} {t : Talk} {r : Ret}
    (i : J g h0 h (req.ownSmall ++ os) (req.ownMedium ++ om)) (e : converse S sx h req t = .ok r) : Kept g h0 os om r ∧ Empty r := by
  unfold converse at e
  split at e
  · cases e
  · cases e
  · rename_i resp h1 hx
    have j := Client.Buf.exchange_inv hg (resp := Msg.Heap.create) i hx
    split at e <;> cases e <;> exact ⟨dropBoth_kept j, dropBoth_empty⟩

theorem register_kept (hg : g.Apart) {S : Nat} {sx : Bool} {buf : Bytes} {t : Talk} {r : Ret} (i : J g h0 h os om)
    (e : register S sx h buf t = .ok r) : Kept g h0 os om r ∧ Empty r := by
  unfold register at e
  have j := addPath_inv hg (S := S) (vs := [CLIENT, ID]) (m := Msg.Heap.create) i
  revert j e
  rcases addPath S h Msg.Heap.create [CLIENT, ID] with ⟨st, m, h1⟩
  intro e j
  cases st with
  | ub => cases e
  | err x => cases e; exact ⟨drop_kept j, drop_empty⟩
  | ok u =>
    dsimp only at e j
    have k := j.setPayload buf
    revert k e
    rcases setPayload h1 m buf with ⟨st, m2, h2⟩
    intro e k
    cases st with
    | ub => cases e
    | err x => cases e; exact ⟨drop_kept k.1, drop_empty⟩
    | ok u => exact converse_kept hg k.1 e

theorem getTime_kept (hg : g.Apart) {S : Nat} {sx : Bool} {t : Talk} {r : Ret} (i : J g h0 h os om)
    (e : getTime S sx h t = .ok r) : Kept g h0 os om r ∧ Empty r := by
  unfold getTime at e
  have j := addPath_inv hg (S := S) (vs := [TIME]) (m := Msg.Heap.create) i
  revert j e
  rcases addPath S h Msg.Heap.create [TIME] with ⟨st, m, h1⟩
  intro e j
  cases st with
  | ub => cases e
  | err x => cases e; exact ⟨drop_kept j, drop_empty⟩
  | ok u => exact converse_kept hg j e

/-- A transfer: a failed one keeps nothing unless there was no memory, one that succeeds keeps the two options of its request at least. -/
theorem transfer_kept (hg : g.Apart) {S : Nat} {sx : Bool} {l : Load} {more : Bool} {rs1 rs2 : List Client.Buf.Round} {r : Ret}
    (i : J g h0 h os om) (e : transfer S sx h l more rs1 rs2 = .ok (some r)) :
    Kept g h0 os om r ∧ (r.status ≠ none → r.status ≠ some .ENOMEM → Empty r) ∧
      (r.status = none → 2 ≤ (r.left.flatMap HMsg.ownSmall).length) := by
  unfold transfer at e
  split at e
  · cases e
    exact ⟨i, fun _ _ => ⟨rfl, rfl⟩, fun h => by cases h⟩
  rename_i b ev hl
  have j := addPath_inv hg (S := S) (vs := [CLIENT, TRANSFER]) (m := Msg.Heap.create) i
  have hlen := @addPath_length S [CLIENT, TRANSFER] h Msg.Heap.create
  revert j e hlen
  rcases addPath S h Msg.Heap.create [CLIENT, TRANSFER] with ⟨st, m, h1⟩
  intro e j hlen
  cases st with
  | ub => cases e
  | err x => cases e; exact ⟨drop_kept j, fun _ _ => drop_empty, fun h => by cases h⟩
  | ok u =>
    dsimp only at e j
    have hlen : m.ownSmall.length = 2 := hlen rfl
    split at e
    · cases e
    · cases e
    · cases e
    · rename_i x hx
      have k := Client.Buf.blockwise_inv hg (resp := Msg.Heap.create) j hx
      have ki := k.inv
      split at e
      · rename_i er hst
        cases e
        have k2 := ki.perm (Client.Buf.swap3 _ _ _) (Client.Buf.swap3 _ _ _)
        have k3 := k2.destroy.1
        have k4 := (k3.perm (Client.Buf.swap3 _ _ _) (Client.Buf.swap3 _ _ _)).destroy.1
        refine ⟨?_, fun _ h2 => ?_, fun h => by cases h⟩
        · unfold Kept
          simpa [dropBoth, destroy, Msg.Heap.zero, HMsg.ownSmall, HMsg.ownMedium, Msg.Heap.plAddr] using k4
        · have z := k.clean (by rw [hst]; exact h2)
          unfold Empty
          simpa [dropBoth, destroy, Msg.Heap.zero, HMsg.ownSmall, HMsg.ownMedium, Msg.Heap.plAddr] using z
      · cases e
        refine ⟨?_, fun h => absurd rfl h, fun _ => ?_⟩
        · unfold Kept
          simpa [List.append_assoc] using ki
        · simp only [List.flatMap_append, List.flatMap_cons, List.flatMap_nil, List.length_append]
          omega

theorem call_kept (hg : g.Apart) {S : Nat} {sx : Bool} {a : Act} {r : Ret} (i : J g h0 h os om) (e : a.call S sx h = .ok (some r)) :
    Kept g h0 os om r ∧ (Clears (a, r.status) → Empty r) ∧ (succeeded (a, r.status) = true → 2 ≤ (r.left.flatMap HMsg.ownSmall).length) := by
  cases a with
  | register buf t =>
    unfold Act.call at e
    dsimp only at e
    split at e
    · cases e
    · cases e
    · rename_i r' hr
      cases e
      have := register_kept hg i hr
      exact ⟨this.1, fun _ => this.2, fun h => by cases h⟩
  | time t =>
    unfold Act.call at e
    dsimp only at e
    split at e
    · cases e
    · cases e
    · rename_i r' hr
      cases e
      have := getTime_kept hg i hr
      exact ⟨this.1, fun _ => this.2, fun h => by cases h⟩
  | transfer l more rs1 rs2 =>
    have := transfer_kept hg i e
    refine ⟨this.1, fun h => this.2.1 (h rfl).1 (h rfl).2, fun h => this.2.2 ?_⟩
    simpa [succeeded, Act.isTransfer] using h

theorem history_kept (hg : g.Apart) {S : Nat} {sx : Bool} {as : List (Act × Option Err)} (i : J g h0 h0 [] []) (e : History S sx h0 as h) :
    ∃ ks km, J g h0 h ks km ∧ ((∀ x ∈ as, Clears x) → ks = [] ∧ km = []) ∧ 2 * as.countP succeeded ≤ ks.length := by
  induction e with
  | nil => exact ⟨[], [], i, fun _ => ⟨rfl, rfl⟩, by simp⟩
  | snoc _ hc ih =>
    rename_i as h a r _
    obtain ⟨ks, km, j, hk, hl⟩ := ih
    obtain ⟨c1, c2, c3⟩ := call_kept hg j hc
    refine ⟨_, _, c1, fun hall => ?_, ?_⟩
    · obtain ⟨z1, z2⟩ := hk (fun x hx => hall x (List.mem_append_left _ hx))
      obtain ⟨y1, y2⟩ := c2 (hall _ (List.mem_append_right _ (List.mem_singleton.2 rfl)))
      rw [z1, z2, y1, y2]
      exact ⟨rfl, rfl⟩
    · rw [List.countP_append, List.countP_singleton, List.length_append]
      split
      · rename_i hs
        have := c3 hs
        omega
      · omega

/-- C137, in full: after any history of calls of the sample clients, whatever arrives and whichever calls fail, every buffer has been given back
(the medium pool having a buffer for every request and no call having failed for lack of memory). -/
def C137_statement : Prop :=
  ∀ (ns ls nm lm : Nat) (small medium : Pool), Created ns ls nm lm small medium →
    ∀ (S : Nat) (sx : Bool) (as : List (Act × Option Err)) (h : Heap), History S sx (Heap.init small medium) as h → NeverRefused h →
      (∀ x ∈ as, x.2 ≠ some .ENOMEM) → GivenBack h

/-- C137, proved part 1: the registration client and the time client give back every buffer, whatever happens during their calls; the file
transfer client does when a transfer fails, and not for lack of memory. Nothing remains but the structures of options whose value could not be
allocated (the fault of property C13). -/
theorem C137_lost_partial {ns ls nm lm : Nat} {small medium : Pool} (c : Created ns ls nm lm small medium) {S : Nat} {sx : Bool}
    {as : List (Act × Option Err)} {h : Heap} (hh : History S sx (Heap.init small medium) as h) (hc : ∀ x ∈ as, Clears x) :
    (held [] h.smallLog).Perm h.lost ∧ held [] h.mediumLog = [] ∧ Clean [] h.smallLog := by
  obtain ⟨hg, i0⟩ := c.init
  obtain ⟨ks, km, j, hz, -⟩ := history_kept hg ⟨i0, Le.refl _⟩ hh
  obtain ⟨rfl, rfl⟩ := hz hc
  exact ⟨j.inv.permS, List.perm_nil.1 j.inv.permM, j.inv.cleanS⟩

/-- C137, proved part 2: when the medium pool refused no request nothing remains at all. -/
theorem C137_given_partial {ns ls nm lm : Nat} {small medium : Pool} (c : Created ns ls nm lm small medium) {S : Nat} {sx : Bool}
    {as : List (Act × Option Err)} {h : Heap} (hh : History S sx (Heap.init small medium) as h) (hr : NeverRefused h)
    (hc : ∀ x ∈ as, Clears x) : GivenBack h := by
  obtain ⟨hg, i0⟩ := c.init
  obtain ⟨ks, km, j, hz, -⟩ := history_kept hg ⟨i0, Le.refl _⟩ hh
  obtain ⟨rfl, rfl⟩ := hz hc
  have hl : h.lost = [] := by
    apply Decidable.byContradiction
    intro hne
    rcases j.le.2 hne with h | ⟨l, h⟩
    · exact h rfl
    · exact hr l h
  have hs := j.inv.permS
  rw [hl] at hs
  exact ⟨List.perm_nil.1 hs, List.perm_nil.1 j.inv.permM, j.inv.cleanS, j.inv.cleanM hl⟩

/-- C137, proved part 3: each transfer that succeeds keeps two buffers of the small pool at least. So a program can make at most half as many
successful transfers as that pool has buffers, whatever else it does. -/
theorem C137_limit {ns ls nm lm : Nat} {small medium : Pool} (c : Created ns ls nm lm small medium) {S : Nat} {sx : Bool}
    {as : List (Act × Option Err)} {h : Heap} (hh : History S sx (Heap.init small medium) as h) :
    2 * as.countP succeeded ≤ (held [] h.smallLog).length ∧ 2 * as.countP succeeded ≤ ns := by
  obtain ⟨hg, i0⟩ := c.init
  obtain ⟨ks, km, j, -, hl⟩ := history_kept hg ⟨i0, Le.refl _⟩ hh
  have h1 := j.inv.permS.length_eq
  rw [List.length_append] at h1
  have h2 : (held [] h.smallLog).length ≤ ((List.range ns).map (fun i => small.buf + i * ls)).length :=
    Server.length_le_of_subset j.inv.relS.nodup (fun p hp => by
      obtain ⟨k, hk, e⟩ := j.inv.relS.mem p hp
      exact List.mem_map.2 ⟨k, List.mem_range.2 hk, e.symm⟩)
  rw [List.length_map, List.length_range] at h2
  omega

theorem load_replay (l : Load) : (∀ e b ev, load l = (some e, b, ev) → replay (false, false) ev = some (false, false)) ∧
    (∀ b ev, load l = (none, b, ev) → replay (false, false) (ev ++ release b) = some (false, false)) := by
  obtain ⟨a, b, c, d, e, f⟩ := l
  cases a <;> cases b <;> cases c <;> cases d <;> rcases e with _ | (_ | _) <;> cases f <;>
    exact ⟨fun _ _ _ h => by cases h <;> rfl, fun _ _ h => by cases h <;> rfl⟩

/-- C137, proved part 4: whatever fails, a call that returns has closed the file that it opened and freed the memory that it took, each once. -/
theorem C137_files {S : Nat} {sx : Bool} {a : Act} {h : Heap} {r : Ret} (e : a.call S sx h = .ok (some r)) :
    replay (false, false) r.files = some (false, false) := by
  have conv : ∀ {h : Heap} {req : HMsg} {t : Talk} {r : Ret}, converse S sx h req t = .ok r → r.files = [] := by
    intro h req t r e
    unfold converse at e
    split at e
    · cases e
    · cases e
    · split at e <;> cases e <;> rfl
  cases a with
  | register buf t =>
    unfold Act.call at e
    dsimp only at e
    split at e
    · cases e
    · cases e
    · rename_i r' hr
      cases e
      have : r.files = [] := by
        unfold register at hr
        split at hr
        · cases hr
        · cases hr; rfl
        · split at hr
          · cases hr
          · cases hr; rfl
          · exact conv hr
      rw [this]; rfl
  | time t =>
    unfold Act.call at e
    dsimp only at e
    split at e
    · cases e
    · cases e
    · rename_i r' hr
      cases e
      have : r.files = [] := by
        unfold getTime at hr
        split at hr
        · cases hr
        · cases hr; rfl
        · exact conv hr
      rw [this]; rfl
  | transfer l more rs1 rs2 =>
    have e : transfer S sx h l more rs1 rs2 = .ok (some r) := e
    obtain ⟨h1, h2⟩ := load_replay l
    unfold transfer at e
    split at e
    · rename_i hl
      cases e
      exact h1 _ _ _ hl
    · rename_i b ev hl
      have h2 := h2 b ev hl
      split at e
      · cases e
      · cases e; exact h2
      · split at e
        · cases e
        · cases e
        · cases e
        · split at e <;> cases e <;> exact h2

/-! ## Examples -/

def exS : Pool := ⟨1000, 8, 32, 2000, [0#8]⟩
def exM : Pool := ⟨5000, 8, 16, 6000, [0#8]⟩

theorem exCreated : Created 8 32 8 16 exS exM :=
  ⟨⟨2 ^ 64, [], _, some 1000, some 2000, rfl⟩, ⟨2 ^ 64, [], _, some 5000, some 6000, rfl⟩, Or.inl (by decide)⟩

/-- The response 2.04 with the payload 7. -/
def exTalk : Talk := ⟨[([0x60, 0x44, 0, 1, 0xFF, 7, 0], 6)], none, none⟩

def exLoad : Load := ⟨none, none, none, none, none, false⟩

def exRound (st : Option Err) : Client.Buf.Round :=
  { format := true, val := [0], last := false, format2 := true, val2 := [], payload := [1, 2], datagrams := [([0x60, 0x44, 0, 1, 0xFF, 7, 0], 6)],
    failed := none, done := some st }

/-- Calls one after the other. -/
def calls (S : Nat) (sx : Bool) (h : Heap) : List Act → Option (List (Act × Option Err) × Heap)
  | [] => some ([], h)
  | a :: as =>
    match a.call S sx h with
    | .ok (some r) => (calls S sx r.heap as).map fun x => ((a, r.status) :: x.1, x.2)
    | _ => none

theorem calls_history {S : Nat} {sx : Bool} {h0 : Heap} : ∀ {as : List Act} {pre : List (Act × Option Err)} {h : Heap} {x : List (Act × Option Err) × Heap},
    History S sx h0 pre h → calls S sx h as = some x → History S sx h0 (pre ++ x.1) x.2
  | [], _, _, _, hp, e => by cases e; simpa using hp
  | a :: as, pre, h, x, hp, e => by
    unfold calls at e
    split at e
    · rename_i r hr
      rw [Option.map_eq_some_iff] at e
      obtain ⟨y, hy, rfl⟩ := e
      have := calls_history (hp.snoc hr) hy
      simpa using this
    · cases e

/-- A registration, a question for the time and a transfer that the server refuses. -/
def exGood : List Act := [.register [49] exTalk, .time exTalk, .transfer exLoad false [exRound (some .EBADMSG)] []]

/-- A transfer that succeeds. -/
def exBad : List Act := [.transfer exLoad false [exRound none] []]

def exEnd (as : List Act) : List (Act × Option Err) × Heap := (calls 32 false (Heap.init exS exM) as).getD ([], Heap.init exS exM)

theorem exEnd_history {as : List Act} (h : (calls 32 false (Heap.init exS exM) as).isSome = true) :
    History 32 false (Heap.init exS exM) (exEnd as).1 (exEnd as).2 := by
  unfold exEnd
  rcases hc : calls 32 false (Heap.init exS exM) as with _ | x
  · rw [hc] at h; cases h
  · exact calls_history .nil hc

theorem exEnd_never {as : List Act} (h : (exEnd as).2.mediumLog.all (fun e => e.2.isSome || match e.1 with | .free _ => true | .alloc _ => false) = true) :
    NeverRefused (exEnd as).2 := by
  intro l hl
  have := List.all_eq_true.1 h _ hl
  simp at this

example : (exEnd exGood).1.map (·.2) = [none, none, some .EBADMSG] ∧ (exEnd exGood).2.smallLog.length = 16 := by decide +kernel

theorem exGood_clears : ∀ x ∈ (exEnd exGood).1, Clears x := by
  have h : ((exEnd exGood).1.all fun x => !x.1.isTransfer || (x.2.isSome && x.2 != some .ENOMEM)) = true := by decide +kernel
  intro x hx ht
  have := List.all_eq_true.1 h x hx
  obtain ⟨a, st⟩ := x
  cases st with
  | none => simp [ht] at this
  | some e => exact ⟨by simp, by simpa [ht] using this⟩

example : GivenBack (exEnd exGood).2 :=
  C137_given_partial exCreated (exEnd_history (by decide +kernel)) (exEnd_never (by decide +kernel)) exGood_clears

example : (held [] (exEnd exGood).2.smallLog).Perm (exEnd exGood).2.lost :=
  (C137_lost_partial exCreated (exEnd_history (as := exGood) (by decide +kernel)) exGood_clears).1

/-- After a transfer that succeeds the two options of the request keep their buffers, and so does the payload of the response. -/
theorem exBad_kept : (exEnd exBad).1.map (·.2) = [none] ∧ (held [] (exEnd exBad).2.smallLog).length = 2 ∧
    (held [] (exEnd exBad).2.mediumLog).length = 3 := by decide +kernel

example : 2 * (exEnd exBad).1.countP succeeded = 2 ∧ 2 * (exEnd exBad).1.countP succeeded ≤ 8 :=
  ⟨by decide +kernel, (C137_limit exCreated (exEnd_history (as := exBad) (by decide +kernel))).2⟩

example : ∃ r, (Act.transfer { exLoad with short := true } false [] []).call 32 false (Heap.init exS exM) = .ok (some r) ∧
    r.files = [.opened, .taken, .freed, .closed] ∧ replay (false, false) r.files = some (false, false) :=
  ⟨_, rfl, rfl, C137_files (S := 32) (sx := false) (h := Heap.init exS exM) (a := .transfer { exLoad with short := true } false [] []) rfl⟩

/-- C137 is violated: a transfer that succeeds keeps the buffers of its request and of the response. -/
theorem C137_violated : ¬ C137_statement := by
  intro h
  have := (h 8 32 8 16 exS exM exCreated 32 false _ _ (exEnd_history (as := exBad) (by decide +kernel)) (exEnd_never (by decide +kernel))
    (by
      intro x hx
      have h : ((exEnd exBad).1.all fun x => x.2.isNone) = true := by decide +kernel
      have := List.all_eq_true.1 h x hx
      intro e
      rw [e] at this
      cases this)).small
  exact absurd (exBad_kept.2.1.symm.trans (congrArg List.length this)) (by decide)

end FreeCoAP.Sample.Buf
