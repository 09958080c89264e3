import Verif.EndToEnd.SpecSession
import Verif.EndToEnd.PropsLive
import Verif.Server.Props6

/-!
# C140: a session of requests
-/

namespace FreeCoAP.EndToEnd

open FreeCoAP.Msg
open FreeCoAP.Server (Env Event Addr arrived Asks Carries Built Srv Reach AppOK AppSafe Transfer AllKnown NoFault NoEmptyBlock Formats Separate step run
  lastRequest init SOK)
open FreeCoAP.Client (stamped exchange)

/-- C140: Over a network that delivers, clients that make one request after the other get each of them answered: every request is given to the application of
the server once, in order, and every exchange returns what the application answered to it. -/
def C140_statement (sx : Bool) : Prop :=
  ∀ (px : Bool) (id : Nat) (sepList : List Bytes) (pool : Mem.Pool) (qs : List Ask), (∀ q ∈ qs, Regular sx px sepList q) →
    AllAnswered sx px (init id sepList pool) qs

/-- The requests as events of the server. -/
def evsOf (qs : List Ask) : List (Env × Event) := qs.map (fun q => (q.env, .datagram q.a q.d))

theorem Sound.carries {sx px : Bool} {q : Ask} (h : Sound sx px q) : Carries sx q.d q.sent ∧ Asks q.sent := by
  obtain ⟨obs, hw⟩ := h.waits
  rcases Client.exchange_cases h.built.type hw with ⟨-, e, he⟩ | ⟨ht, hcl, -⟩
  · cases he
  · exact ⟨carries_of (stamped_built h.built) (Or.inl hcl) (fun o ho => h.ordinary o ho) h.datagram h.short, ht, hcl⟩

theorem Sound.harmless {sx px : Bool} {q : Ask} (h : Sound sx px q) : Server.Harmless sx q.d := by
  refine ⟨h.short, ?_⟩
  intro m hm
  rw [hm.unique h.carries.1]
  exact h.blocks

theorem Sound.arrived {sx px : Bool} {q : Ask} (h : Sound sx px q) (a : Addr) :
    arrived sx a (q.env, .datagram q.a q.d) = if q.a = a then some q.sent else none := by
  obtain ⟨g0, g1, g2⟩ := h.fine.arrives
  have hc := h.carries.1
  unfold Carries at hc
  unfold Server.arrived
  dsimp only
  by_cases ha : q.a = a
  · rw [if_pos ⟨ha, g0, g1, g2⟩, if_pos ha]
    have hc' : parse sx (Server.recvBuf q.d) (min q.d.length 1152) = .ok q.sent := hc
    rw [hc']
  · rw [if_neg (fun hn => ha hn.1), if_neg ha]

/-- The last request of a client is the last one of the list. -/
theorem lastRequest_of {sx px : Bool} {a : Addr} {qs : List Ask} (h : ∀ q ∈ qs, Sound sx px q) :
    lastRequest sx a (evsOf qs) = ((qs.filter (fun p => decide (p.a = a))).getLast?).map Ask.sent := by
  have hf : (evsOf qs).filterMap (Server.arrived sx a) = (qs.filter (fun p => decide (p.a = a))).map Ask.sent := by
    unfold evsOf
    induction qs with
    | nil => rfl
    | cons q qs ih =>
      rw [List.map_cons, List.filterMap_cons, (h q List.mem_cons_self).arrived a, List.filter_cons]
      by_cases ha : q.a = a
      · rw [if_pos ha, if_pos (decide_eq_true ha), List.map_cons, ih (fun p hp => h p (List.mem_cons_of_mem _ hp))]
      · rw [if_neg ha, if_neg (by rw [decide_eq_true_eq]; exact ha), ih (fun p hp => h p (List.mem_cons_of_mem _ hp))]
  have hall : ∀ m ∈ ((qs.filter (fun p => decide (p.a = a))).map Ask.sent).reverse, Asks m := by
    intro m hm
    obtain ⟨p, hp, rfl⟩ := List.mem_map.1 (List.mem_reverse.1 hm)
    exact (h p (List.mem_filter.1 hp).1).carries.2
  unfold lastRequest
  rw [hf, ← List.getLast?_map, ← List.head?_reverse]
  cases hr : ((qs.filter (fun p => decide (p.a = a))).map Ask.sent).reverse with
  | nil => rfl
  | cons m ms =>
    rw [hr] at hall
    rw [List.find?_cons, decide_eq_true (hall m List.mem_cons_self)]
    rfl

/-- A server that has answered a request without starting a transfer has no transfer, if it had none before. -/
theorem no_transfer {sx px : Bool} {evs : List (Env × Event)} {s s1 : Srv} {tr : List (List Server.Obs)} {q : Ask} {o : List Server.Obs} {e : Option Err}
    (hq : Sound sx px q) (hr : Reach sx evs s tr) (ht : ∀ a, ¬ Transfer s a) (h0 : q.sent.msgId ≠ 0)
    (hp : ∀ m', lastRequest sx q.a evs = some m' → m'.msgId ≠ q.sent.msgId)
    (h : step sx s q.env (.datagram q.a q.d) = .ok (s1, o, e)) : ∀ a, ¬ Transfer s1 a := by
  intro a
  by_cases ha : a = q.a
  · subst ha
    obtain ⟨hc, hask⟩ := hq.carries
    obtain ⟨t, L, r, o2, h1, h2, h3, -, -, h5⟩ := Server.new_request hr.tidy (Server.step_rel h) hc hq.fine.arrives hq.fine.create
      (fun _ => hq.fine.ack) hask (fun _ => h0) (Server.fresh_of_last hr.lastOK h0 hp)
    have hreg : t.blk.type = .regular := by
      rcases h1 with ⟨h1, -⟩ | ⟨-, rfl, -⟩
      · exact Classical.byContradiction fun hne => ht _ ⟨t, h1, hne⟩
      · rfl
    have hblk : r.blk.type = .regular := by
      unfold Server.generate at h3
      rw [if_neg (by rw [Server.checkCritical_ne]; exact fun h => h hq.known), if_neg (by simp [Server.cleared, hreg]),
        hq.handle (Server.cleared q.env t) (by simpa [Server.cleared] using h2)] at h3
      cases h3
      exact hreg
    rintro ⟨u, hu, hn⟩
    rcases h5 with ⟨x, -, -, g, -⟩ | ⟨-, -, g⟩ | ⟨-, -, -, -, -, -, _, _, -, -, g⟩
    · rw [g] at hu; cases hu
    · rw [g] at hu; cases hu
    · rw [g] at hu
      cases hu
      exact hn hblk
  · rintro ⟨u, hu, hn⟩
    cases Server.step_view (Server.step_rel h) hr.tidy a with
    | untouched g => rw [g] at hu; exact ht a ⟨u, hu, hn⟩
    | evicted b d hb hev g => rw [g] at hu; cases hu
    | exchange d' t r L hev => cases hev; exact ha rfl
    | timer i t r hev => cases hev

theorem session_all {sx px : Bool} {sepList : List Bytes} : ∀ (qs pre : List Ask) (s : Srv) (tr0 : List (List Server.Obs)),
    (∀ q ∈ pre ++ qs, Regular sx px sepList q) → Ids (pre ++ qs) → Reach sx (evsOf pre) s tr0 → (∀ a, ¬ Transfer s a) → SOK s → s.sepList = sepList →
    AllAnswered sx px s qs
  | [], _, _, _, _, _, _, _, _, _ => ⟨[], [], rfl, rfl, rfl, fun i q h => by cases h⟩
  | q :: qs, pre, s, tr0, hall, hids, hr, ht, hs, hsl => by
    have hq := hall q (List.mem_append.2 (Or.inr List.mem_cons_self))
    obtain ⟨h0, hprev⟩ := hids pre q qs rfl
    have hp : ∀ m', lastRequest sx q.a (evsOf pre) = some m' → m'.msgId ≠ q.sent.msgId := by
      intro m' hm
      rw [lastRequest_of (fun p hp => (hall p (List.mem_append.2 (Or.inl hp))).toSound)] at hm
      obtain ⟨p, hp, rfl⟩ := Option.map_eq_some_iff.1 hm
      exact hprev p hp
    obtain ⟨⟨s1, o, e⟩, h, hs1⟩ := Server.step_good (sx := sx) (s := s) (env := q.env) (ev := .datagram q.a q.d) hq.safe
      (fun a d he => by cases he; exact hq.harmless) hs
    have hw : Waiting sx px q.a (evsOf pre) s tr0 q.env q.x [] q.req q.resp q.d :=
      ⟨hr, hq.app, hq.fine, ht q.a, hq.built, hq.ordinary, hq.known, hq.answer, hq.handle, hq.datagram, hq.short, hq.waits,
        fun i hi => by cases hi⟩
    obtain ⟨-, c1, obs, r, c2, c3⟩ := C109_answered_partial sx px q.a (evsOf pre) s s1 tr0 q.env q.x [] [] q.req q.resp q.d o e hw h h0 hp
      (fun hn => absurd ⟨hq.con, by rw [hsl]; exact hq.piggy⟩ hn)
    rw [List.nil_append, List.append_nil] at c2
    have hpre : pre ++ q :: qs = (pre ++ [q]) ++ qs := by rw [List.append_assoc]; rfl
    have hr1 : Reach sx (evsOf (pre ++ [q])) s1 (tr0 ++ [o]) := by
      have := hr.step h
      unfold evsOf at this ⊢
      rw [List.map_append]
      exact this
    rw [hpre] at hall hids
    obtain ⟨tr, rs, k1, k2, k3, k4⟩ := session_all qs (pre ++ [q]) s1 (tr0 ++ [o]) hall hids hr1 (no_transfer hq.toSound hr ht h0 hp h) hs1
      ((Server.step_rel h).sepList.trans hsl)
    refine ⟨o :: tr, some (.ok r) :: rs, ?_, ?_, ?_, ?_⟩
    · unfold session
      rw [h]
      dsimp only
      rw [c2]
      dsimp only
      rw [k1]
    · rw [List.flatten_cons, List.map_cons, ← k2]
      have : Server.calls (o ++ tr.flatten) = Server.calls o ++ Server.calls tr.flatten := by
        unfold Server.calls
        rw [List.filterMap_append]
      rw [this, c1]
      rfl
    · rw [List.length_cons, List.length_cons, k3]
    · intro i p hi
      cases i with
      | zero => cases hi; exact ⟨r, rfl, c3⟩
      | succ i => exact k4 i p hi

/-- C140, the part that holds for ids, which are random, other than 0 and that of the previous request of the same client. Requests that are answered with a
separate response are not included. -/
theorem C140_session_partial (sx px : Bool) (id : Nat) (sepList : List Bytes) (pool : Mem.Pool) (qs : List Ask)
    (h : ∀ q ∈ qs, Regular sx px sepList q) (hi : Ids qs) : AllAnswered sx px (init id sepList pool) qs := by
  refine session_all qs [] _ [] h hi ⟨id, sepList, pool, rfl⟩ ?_ (Server.init_sok id sepList pool) rfl
  rintro a ⟨t, ht, -⟩
  obtain ⟨i, hi, hact, -⟩ := Server.look_some ht
  have := List.mem_of_getElem? hi
  rw [List.eq_of_mem_replicate this] at hact
  cases hact

/-! ## Examples -/

/-- The request of the examples from the client at `a`, with the random values of `x`. -/
def exQuery (a : Addr) (x : Client.XEnv) : Ask := ⟨a, Server.exEnv, x, Client.exGet, exAnswer, enc (stamped x Client.exGet)⟩

theorem exQuery_regular (sx : Bool) {a : Addr} {x : Client.XEnv} {obs : List Client.Obs} (hl : (enc (stamped x Client.exGet)).length < 1152)
    (hw : exchange sx false { x with inputs := [] } Client.exGet = .ok (obs, none)) : Regular sx false Server.exSep (exQuery a x) := by
  refine ⟨⟨Server.exEnv_app, Server.exEnv_safe, Server.exEnv_noFault, Client.exGet_built, exGet_ordinary sx, exGet_known, ?_,
    exAnswer_ok sx false, fun _ _ => rfl, ?_, hl, obs, hw⟩, rfl, ?_⟩
  · show NoEmptyBlock Client.exGet
    intro o ho hn
    have : o ∈ [(⟨11, [97]⟩ : Op)] := ho
    rw [List.mem_singleton.1 this]
    exact fun h => by cases h
  · refine Client.formats_iff.2 ⟨?_, rfl⟩
    rcases Client.exchange_cases Client.exGet_built.type hw with ⟨-, e, he⟩ | ⟨-, -, o3, hs⟩
    · cases he
    · exact hs.send
  · show ¬ Separate Server.exSep Client.exGet
    decide +kernel

/-- The client of the examples with another id. -/
def exOther : Client.XEnv := { Client.exEnv [] with id1 := 77 }

theorem exQuery_first (sx : Bool) (a : Addr) : Regular sx false Server.exSep (exQuery a (Client.exEnv [])) :=
  exQuery_regular sx (obs := [.sent Client.exReqBytes, .arm 2500]) (by decide +kernel) (by cases sx <;> decide +kernel)

theorem exQuery_second (sx : Bool) (a : Addr) : Regular sx false Server.exSep (exQuery a exOther) :=
  exQuery_regular sx (obs := [.sent (enc (stamped exOther Client.exGet)), .arm 2500]) (by decide +kernel) (by cases sx <;> decide +kernel)

/-- Two clients, the first makes two requests. -/
def exSession : List Ask := [exQuery [1] (Client.exEnv []), exQuery [2] (Client.exEnv []), exQuery [1] exOther]

theorem exSession_ids : Ids exSession := by
  intro pre q post h
  match pre, h with
  | [], h => cases h; exact ⟨by decide +kernel, fun p hp => by cases hp⟩
  | [p0], h => cases h; exact ⟨by decide +kernel, fun p hp => by cases hp⟩
  | [p0, p1], h =>
    cases h
    refine ⟨by decide +kernel, fun p hp => ?_⟩
    cases hp
    decide +kernel
  | p0 :: p1 :: p2 :: r, h =>
    have := congrArg List.length h
    simp [exSession] at this

theorem exSession_regular (sx : Bool) : ∀ q ∈ exSession, Regular sx false Server.exSep q := by
  intro q hq
  unfold exSession at hq
  simp only [List.mem_cons, List.not_mem_nil, or_false] at hq
  rcases hq with rfl | rfl | rfl
  · exact exQuery_first sx _
  · exact exQuery_first sx _
  · exact exQuery_second sx _

example (sx : Bool) : AllAnswered sx false (init 100 Server.exSep Server.exPool) exSession :=
  C140_session_partial sx false 100 Server.exSep Server.exPool exSession (exSession_regular sx) exSession_ids

/-- C140 does not hold: if a client chooses the same id for two requests, the second is taken for a repetition of the first and the application is not called
for it. -/
theorem C140_violated (sx : Bool) : ¬ C140_statement sx := by
  intro h
  obtain ⟨tr, rs, h1, h2, -⟩ := h false 100 Server.exSep Server.exPool [exQuery [1] (Client.exEnv []), exQuery [1] (Client.exEnv [])] (by
    intro q hq
    simp only [List.mem_cons, List.not_mem_nil, or_false] at hq
    rcases hq with rfl | rfl <;> exact exQuery_first sx _)
  have key : (match session sx false (init 100 Server.exSep Server.exPool) [exQuery [1] (Client.exEnv []), exQuery [1] (Client.exEnv [])] with
      | .ok (tr, _) => decide ((Server.calls tr.flatten).length = 1)
      | _ => false) = true := by cases sx <;> decide +kernel
  rw [h1] at key
  have := of_decide_eq_true key
  rw [h2] at this
  cases this

end FreeCoAP.EndToEnd
