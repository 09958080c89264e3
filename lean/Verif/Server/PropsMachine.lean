import Verif.Server.LemmasMachine

/-!
# C145: the server does what the machine does
-/

namespace FreeCoAP.Server.Machine

open FreeCoAP.Msg
open FreeCoAP.Server.Simple (Copy answer bytes exCopy exCopy_fair fairB)

theorem item_step {sx : Bool} {As : List Addr} {s s' : Srv} {t : State} {x : Item} {o : List Obs} {e : Option Err} (hc : Corr (ofAddr s) s.msgId t)
    (honly : ∀ a u, ofAddr s a = some u → a ∈ As) (hT : Tidy s) (hA : As.length ≤ 8) (hf : x.Fair sx s.sepList) (hx : x.client ∈ As)
    (h : Server.step sx s (x.ev s).1 (x.ev s).2 = .ok (s', o, e)) :
    (calls o, sends o, arms o) = (step s.sepList t x).2 ∧ Corr (ofAddr s') s'.msgId (step s.sepList t x).1 ∧ ∀ a u, ofAddr s' a = some u → a ∈ As := by
  have key : ∀ a, a ∈ As → (∀ b, b ≠ a → ofAddr s' b = ofAddr s b) → ∀ b u, ofAddr s' b = some u → b ∈ As := by
    intro a ha hoth b u hb
    by_cases hba : b = a
    · rw [hba]; exact ha
    · exact honly b u (hoth b hba ▸ hb)
  have hrel := step_rel h
  cases x with
  | request c =>
    have hoth := others honly hT hA hx hrel
    obtain ⟨h1, h2, -⟩ := request_step hc rfl hoth hT (served hf) hrel
    exact ⟨h1, h2, key _ hx hoth⟩
  | failed c err =>
    have hoth := others honly hT hA hx hrel
    obtain ⟨h1, h2, -⟩ := failed_step hc rfl hoth hT hf hrel
    exact ⟨h1, h2, key _ hx hoth⟩
  | odd a env d m =>
    have hoth := others honly hT hA hx hrel
    obtain ⟨h1, h2, -⟩ := odd_step hc rfl hoth hT hf.2.1 hf.2.2.1 hf.2.2.2.2.1 hf.2.2.2.2.2 h
    exact ⟨h1, h2, key _ hx hoth⟩
  | junk a env d =>
    have hoth := others honly hT hA hx hrel
    obtain ⟨h1, h2, -⟩ := junk_step hc rfl hoth hT hf.2.1 hf.2.2.1 hf.2.2.2 h
    exact ⟨h1, h2, key _ hx hoth⟩
  | note a env d m =>
    have hoth := others honly hT hA hx hrel
    obtain ⟨h1, h2, -⟩ := note_step hc rfl hoth hT hf.2.1 hf.2.2.1 hf.2.2.2.2 hrel
    exact ⟨h1, h2, key _ hx hoth⟩
  | late a env =>
    obtain ⟨h1, h2, hoth, -⟩ := late_step hc hT hf.2 rfl hrel
    exact ⟨h1, h2, key _ hx hoth⟩

theorem all_items {sx : Bool} {As : List Addr} {sepList : List Bytes} (hA : As.length ≤ 8) : ∀ (xs : List Item) (s : Srv) (t : State),
    Corr (ofAddr s) s.msgId t → (∀ a u, ofAddr s a = some u → a ∈ As) → Tidy s → SOK s → s.sepList = sepList →
    (∀ x ∈ xs, x.Fair sx sepList ∧ x.client ∈ As) →
    ∃ tr, drive sx s xs = .ok tr ∧ tr.map (fun o => (calls o, sends o, arms o)) = run sepList t xs
  | [], s, t, _, _, _, _, _, _ => ⟨[], rfl, rfl⟩
  | x :: xs, s, t, hc, ho, hT, hs, hsl, hall => by
    subst hsl
    have hf := hall x List.mem_cons_self
    obtain ⟨⟨s1, o, e⟩, h, hs1⟩ := step_good (fair_safe hf.1) (fair_harmless hf.1) hs
    have hrel := step_rel h
    obtain ⟨g1, g2, g3⟩ := item_step hc ho hT hA hf.1 hf.2 h
    obtain ⟨tr, k1, k2⟩ := all_items hA xs s1 _ g2 g3 (hrel.tidy hT) hs1 hrel.sepList (fun y hy => hall y (List.mem_cons_of_mem _ hy))
    refine ⟨o :: tr, ?_, ?_⟩
    · unfold drive
      rw [h]
      dsimp only
      rw [k1]
    · rw [List.map_cons, g1, k2]
      rfl

/-- C145: with at most eight clients the server does what the machine does. -/
theorem C145_machine (sx : Bool) (id : Nat) (sepList : List Bytes) (pool : Mem.Pool) (As : List Addr) (hA : As.length ≤ 8) (xs : List Item)
    (h : ∀ x ∈ xs, x.Fair sx sepList ∧ x.client ∈ As) :
    ∃ tr, drive sx (init id sepList pool) xs = .ok tr ∧ tr.map (fun o => (calls o, sends o, arms o)) = run sepList ⟨id % 65536, fun _ => blank⟩ xs :=
  all_items hA xs _ _ (corr_init id sepList pool) (fun a u hx => by rw [ofAddr_init] at hx; cases hx) (init_tidy _ _ _) (init_sok id sepList pool) rfl h

/-! ## Examples -/

/-- An acknowledgement as the server reads it. -/
def exNote (sx : Bool) (a : Addr) (d : Bytes) : Item :=
  .note a exEnv d (match parse sx (recvBuf d) (min d.length 1152) with | .ok m => m | _ => create)

/-- Decide whether a datagram is an acknowledgement or a reset. -/
def noteB (sx : Bool) (d : Bytes) : Bool :=
  harmlessB sx d && test (parse sx (recvBuf d) (min d.length 1152)) (fun m => decide (m.type = ACK ∨ m.type = RST))

theorem exNote_fair {sx : Bool} {sepList : List Bytes} {As : List Addr} {a : Addr} {d : Bytes} (h : noteB sx d = true) (ha : a ∈ As) :
    (exNote sx a d).Fair sx sepList ∧ (exNote sx a d).client ∈ As := by
  unfold noteB at h
  rw [Bool.and_eq_true] at h
  obtain ⟨m, hm, hq⟩ := test_ok h.2
  have hq := of_decide_eq_true hq
  unfold exNote
  rw [hm]
  exact ⟨⟨exEnv_safe, exEnv_noFault, hm, harmless_of h.1, hq⟩, ha⟩

theorem exRequest_fair {sx : Bool} {sepList : List Bytes} {As : List Addr} {a : Addr} {d : Bytes} (h : fairB sx d = true)
    (ha : a ∈ As) : (Item.request (exCopy sx a d)).Fair sx sepList ∧ a ∈ As := ⟨Or.inl (exCopy_fair h), ha⟩

/-- Two clients with separate responses: the first one acknowledges the second transmission, the second one sends another request, whose response is sent again
in place of the first, and never acknowledges anything. -/
def exItems (sx : Bool) : List Item :=
  [.request (exCopy sx [1] exGetB), .request (exCopy sx [2] exGetB), .late [1] exEnv, exNote sx [1] (emptyAck 101), .late [1] exEnv, .late [2] exEnv,
    .request (exCopy sx [2] exGet), .late [2] exEnv, .late [2] exEnv, .late [2] exEnv, .late [2] exEnv, .late [2] exEnv,
    .request (exCopy sx [2] exGet), .request (exCopy sx [1] exGetB), exNote sx [1] (reset 9), .request (exCopy sx [1] exGetB)]

theorem exItems_ok (sx : Bool) : ∀ x ∈ exItems sx, x.Fair sx exSep ∧ x.client ∈ ([[1], [2]] : List Addr) := by
  have h1 : fairB sx exGet = true := by cases sx <;> decide +kernel
  have h2 : fairB sx exGetB = true := by cases sx <;> decide +kernel
  have h3 : noteB sx (emptyAck 101) = true := by cases sx <;> decide +kernel
  have h4 : noteB sx (reset 9) = true := by cases sx <;> decide +kernel
  have m1 : ([1] : Addr) ∈ ([[1], [2]] : List Addr) := by decide
  have m2 : ([2] : Addr) ∈ ([[1], [2]] : List Addr) := by decide
  have hl : ∀ a ∈ ([[1], [2]] : List Addr), (Item.late a exEnv).Fair sx exSep ∧ a ∈ ([[1], [2]] : List Addr) := fun a ha => ⟨⟨exEnv_safe, exEnv_noFault⟩, ha⟩
  intro x hx
  unfold exItems at hx
  rcases List.mem_cons.1 hx with rfl | hx
  · exact exRequest_fair h2 m1
  rcases List.mem_cons.1 hx with rfl | hx
  · exact exRequest_fair h2 m2
  rcases List.mem_cons.1 hx with rfl | hx
  · exact hl _ (by decide)
  rcases List.mem_cons.1 hx with rfl | hx
  · exact exNote_fair h3 m1
  rcases List.mem_cons.1 hx with rfl | hx
  · exact hl _ (by decide)
  rcases List.mem_cons.1 hx with rfl | hx
  · exact hl _ (by decide)
  rcases List.mem_cons.1 hx with rfl | hx
  · exact exRequest_fair h1 m2
  rcases List.mem_cons.1 hx with rfl | hx
  · exact hl _ (by decide)
  rcases List.mem_cons.1 hx with rfl | hx
  · exact hl _ (by decide)
  rcases List.mem_cons.1 hx with rfl | hx
  · exact hl _ (by decide)
  rcases List.mem_cons.1 hx with rfl | hx
  · exact hl _ (by decide)
  rcases List.mem_cons.1 hx with rfl | hx
  · exact hl _ (by decide)
  rcases List.mem_cons.1 hx with rfl | hx
  · exact exRequest_fair h1 m2
  rcases List.mem_cons.1 hx with rfl | hx
  · exact exRequest_fair h2 m1
  rcases List.mem_cons.1 hx with rfl | hx
  · exact exNote_fair h4 m1
  rcases List.mem_cons.1 hx with rfl | hx
  · exact exRequest_fair h2 m1
  · cases hx

/-- The theorem applies to them. -/
example (sx : Bool) : ∃ tr, drive sx (init 100 exSep exPool) (exItems sx) = .ok tr ∧
    tr.map (fun o => (calls o, sends o, arms o)) = run exSep ⟨100, fun _ => blank⟩ (exItems sx) :=
  C145_machine sx 100 exSep exPool [[1], [2]] (by decide) (exItems sx) (exItems_ok sx)

/-- What happens: a response is sent again after 2, 4, 8 and 16 seconds; after 32 seconds, and after a reset with another id, the client is forgotten, and a
repeated request is executed again. -/
example (sx : Bool) : (run exSep ⟨100, fun _ => blank⟩ (exItems sx)).map (fun x => (x.1.map (fun y => (y.1, y.2.msgId)), x.2.1)) = [
    ([([1], 6)], [([1], emptyAck 6), ([1], [0x41, 0x45, 0, 101, 0xAB, 0xFF, 104, 105])]),
    ([([2], 6)], [([2], emptyAck 6), ([2], [0x41, 0x45, 0, 102, 0xAB, 0xFF, 104, 105])]),
    ([], [([1], [0x41, 0x45, 0, 101, 0xAB, 0xFF, 104, 105])]),
    ([], []), ([], []),
    ([], [([2], [0x41, 0x45, 0, 102, 0xAB, 0xFF, 104, 105])]),
    ([([2], 5)], [([2], [0x61, 0x45, 0, 5, 0xAA, 0xFF, 104, 105])]),
    ([], [([2], [0x61, 0x45, 0, 5, 0xAA, 0xFF, 104, 105])]),
    ([], [([2], [0x61, 0x45, 0, 5, 0xAA, 0xFF, 104, 105])]),
    ([], [([2], [0x61, 0x45, 0, 5, 0xAA, 0xFF, 104, 105])]),
    ([], []), ([], []),
    ([([2], 5)], [([2], [0x61, 0x45, 0, 5, 0xAA, 0xFF, 104, 105])]),
    ([], [([1], emptyAck 6)]),
    ([], []),
    ([([1], 6)], [([1], emptyAck 6), ([1], [0x41, 0x45, 0, 103, 0xAB, 0xFF, 104, 105])])] := by cases sx <;> decide +kernel

/-- The timers. -/
example (sx : Bool) : (run exSep ⟨100, fun _ => blank⟩ (exItems sx)).map (fun x => x.2.2) = [
    [([1], 2000)], [([2], 2000)], [([1], 4000)], [], [], [([2], 4000)], [], [([2], 8000)], [([2], 16000)], [([2], 32000)], [], [], [], [], [], [([1], 2000)]] := by
  cases sx <;> decide +kernel

/-- A client gets a separate response, sends its next request, and acknowledges the response after that; then it repeats its request. -/
def exLate (sx : Bool) : List Item :=
  [.request (exCopy sx [1] exGetB), .request (exCopy sx [1] exGet), exNote sx [1] (emptyAck 101), .request (exCopy sx [1] exGet)]

/-- A correct client, nothing lost: as the acknowledgement comes after the next request, the server forgets that request, and executes it twice. -/
theorem C145_late_acknowledgement (sx : Bool) : (∀ x ∈ exLate sx, x.Fair sx exSep ∧ x.client ∈ ([[1]] : List Addr)) ∧
    ∃ tr, drive sx (init 100 exSep exPool) (exLate sx) = .ok tr ∧
      tr.map (fun o => (calls o).map (fun y => (y.1, y.2.msgId))) = [[([1], 6)], [([1], 5)], [], [([1], 5)]] := by
  have h1 : fairB sx exGet = true := by cases sx <;> decide +kernel
  have h2 : fairB sx exGetB = true := by cases sx <;> decide +kernel
  have h3 : noteB sx (emptyAck 101) = true := by cases sx <;> decide +kernel
  have m1 : ([1] : Addr) ∈ ([[1]] : List Addr) := by decide
  have hall : ∀ x ∈ exLate sx, x.Fair sx exSep ∧ x.client ∈ ([[1]] : List Addr) := by
    intro x hx
    unfold exLate at hx
    rcases List.mem_cons.1 hx with rfl | hx
    · exact exRequest_fair h2 m1
    rcases List.mem_cons.1 hx with rfl | hx
    · exact exRequest_fair h1 m1
    rcases List.mem_cons.1 hx with rfl | hx
    · exact exNote_fair h3 m1
    rcases List.mem_cons.1 hx with rfl | hx
    · exact exRequest_fair h1 m1
    · cases hx
  obtain ⟨tr, k1, k2⟩ := C145_machine sx 100 exSep exPool [[1]] (by decide) (exLate sx) hall
  refine ⟨hall, tr, k1, ?_⟩
  have hr : (run exSep ⟨100 % 65536, fun _ => blank⟩ (exLate sx)).map (fun x => x.1.map (fun y => (y.1, y.2.msgId))) = [[([1], 6)], [([1], 5)], [], [([1], 5)]] := by
    cases sx <;> decide +kernel
  rw [← k2, List.map_map] at hr
  exact hr

/-- A first request with the id 0: it is not executed, and answered with an empty confirmable message. -/
theorem C145_zero (sx : Bool) : (Item.request (exCopy sx [1] exZero)).Fair sx exSep ∧
    run exSep ⟨100, fun _ => blank⟩ [.request (exCopy sx [1] exZero)] = [([], [([1], [0x40, 0, 0, 0])], [])] := by
  have h1 : fairB sx exZero = true := by cases sx <;> decide +kernel
  refine ⟨Or.inl (exCopy_fair h1), ?_⟩
  have h2 : (exCopy sx [1] exZero).m.msgId = 0 ∧ (exCopy sx [1] exZero).m.type = CON ∧ ¬ Separate exSep (exCopy sx [1] exZero).m := by
    cases sx <;> decide +kernel
  show [(request exSep _ _).2] = _
  unfold request
  rw [if_pos (show blank.id = _ from h2.1.symm), if_neg (by rw [h2.2.1]; decide), if_neg h2.2.2]
  rfl

/-- A message that is no request, as the server reads it. -/
def exOddItem (sx : Bool) (a : Addr) (d : Bytes) : Item :=
  .odd a exEnv d (match parse sx (recvBuf d) (min d.length 1152) with | .ok m => m | _ => create)

/-- Decide whether a datagram is such a message. -/
def oddB (sx : Bool) (d : Bytes) : Bool :=
  harmlessB sx d && test (parse sx (recvBuf d) (min d.length 1152)) (fun m => decide ((m.type = CON ∨ m.type = NON) ∧ m.codeClass ≠ 0))

theorem exOdd_fair {sx : Bool} {sepList : List Bytes} {As : List Addr} {a : Addr} {d : Bytes} (h : oddB sx d = true) (ha : a ∈ As) :
    (exOddItem sx a d).Fair sx sepList ∧ (exOddItem sx a d).client ∈ As := by
  unfold oddB at h
  rw [Bool.and_eq_true] at h
  obtain ⟨m, hm, hq⟩ := test_ok h.2
  have hq := of_decide_eq_true hq
  unfold exOddItem
  rw [hm]
  exact ⟨⟨exEnv_safe, exEnv_noFault, hm, harmless_of h.1, hq⟩, ha⟩

/-- Decide whether a datagram cannot be read. -/
def junkB (sx : Bool) (d : Bytes) : Bool :=
  decide (d.length < 1152) && (match parse sx (recvBuf d) (min d.length 1152) with | .ok _ => false | _ => true)

theorem exJunk_fair {sx : Bool} {sepList : List Bytes} {As : List Addr} {a : Addr} {d : Bytes} (h : junkB sx d = true) (ha : a ∈ As) :
    (Item.junk a exEnv d).Fair sx sepList ∧ (Item.junk a exEnv d).client ∈ As := by
  unfold junkB at h
  rw [Bool.and_eq_true] at h
  refine ⟨⟨exEnv_safe, exEnv_noFault, ?_, of_decide_eq_true h.1⟩, ha⟩
  rintro ⟨m, hm⟩
  have h2 := h.2
  rw [show parse sx (recvBuf d) (min d.length 1152) = .ok m from hm] at h2
  cases h2

/-- A request, a response with its id and one with another id; the request again; then a datagram with a token of nine bytes, as a confirmable and as a
non-confirmable message, one of version 2, and one of two bytes; and the request once more. -/
def exOdds (sx : Bool) : List Item :=
  [.request (exCopy sx [1] exGet), exOddItem sx [1] [0x40, 0x45, 0, 5], exOddItem sx [1] [0x50, 0x45, 0, 5], exOddItem sx [1] [0x40, 0x45, 0, 8],
    exOddItem sx [1] [0x50, 0x45, 0, 9], .request (exCopy sx [1] exGet), .junk [1] exEnv [0x49, 1, 0, 7], .junk [1] exEnv [0x59, 1, 0, 7],
    .junk [1] exEnv [0x80, 1, 0, 7], .junk [1] exEnv [0x40, 1], .request (exCopy sx [1] exGet)]

theorem exOdds_ok (sx : Bool) : ∀ x ∈ exOdds sx, x.Fair sx exSep ∧ x.client ∈ ([[1]] : List Addr) := by
  have h1 : fairB sx exGet = true := by cases sx <;> decide +kernel
  have o1 : oddB sx [0x40, 0x45, 0, 5] = true := by cases sx <;> decide +kernel
  have o2 : oddB sx [0x50, 0x45, 0, 5] = true := by cases sx <;> decide +kernel
  have o3 : oddB sx [0x40, 0x45, 0, 8] = true := by cases sx <;> decide +kernel
  have o4 : oddB sx [0x50, 0x45, 0, 9] = true := by cases sx <;> decide +kernel
  have j1 : junkB sx [0x49, 1, 0, 7] = true := by cases sx <;> decide +kernel
  have j2 : junkB sx [0x59, 1, 0, 7] = true := by cases sx <;> decide +kernel
  have j3 : junkB sx [0x80, 1, 0, 7] = true := by cases sx <;> decide +kernel
  have j4 : junkB sx [0x40, 1] = true := by cases sx <;> decide +kernel
  have m1 : ([1] : Addr) ∈ ([[1]] : List Addr) := by decide
  intro x hx
  unfold exOdds at hx
  rcases List.mem_cons.1 hx with rfl | hx
  · exact exRequest_fair h1 m1
  rcases List.mem_cons.1 hx with rfl | hx
  · exact exOdd_fair o1 m1
  rcases List.mem_cons.1 hx with rfl | hx
  · exact exOdd_fair o2 m1
  rcases List.mem_cons.1 hx with rfl | hx
  · exact exOdd_fair o3 m1
  rcases List.mem_cons.1 hx with rfl | hx
  · exact exOdd_fair o4 m1
  rcases List.mem_cons.1 hx with rfl | hx
  · exact exRequest_fair h1 m1
  rcases List.mem_cons.1 hx with rfl | hx
  · exact exJunk_fair j1 m1
  rcases List.mem_cons.1 hx with rfl | hx
  · exact exJunk_fair j2 m1
  rcases List.mem_cons.1 hx with rfl | hx
  · exact exJunk_fair j3 m1
  rcases List.mem_cons.1 hx with rfl | hx
  · exact exJunk_fair j4 m1
  rcases List.mem_cons.1 hx with rfl | hx
  · exact exRequest_fair h1 m1
  · cases hx

/-- The theorem applies to them. -/
example (sx : Bool) : ∃ tr, drive sx (init 100 exSep exPool) (exOdds sx) = .ok tr ∧
    tr.map (fun o => (calls o, sends o, arms o)) = run exSep ⟨100, fun _ => blank⟩ (exOdds sx) :=
  C145_machine sx 100 exSep exPool [[1]] (by decide) (exOdds sx) (exOdds_ok sx)

/-- What happens: the response with the id of the request is answered like the request; the other datagrams are refused, and make the server execute the repeated
request again. -/
example (sx : Bool) : (run exSep ⟨100, fun _ => blank⟩ (exOdds sx)).map (fun x => (x.1.map (fun y => (y.1, y.2.msgId)), x.2.1)) = [
    ([([1], 5)], [([1], [0x61, 0x45, 0, 5, 0xAA, 0xFF, 104, 105])]),
    ([], [([1], [0x61, 0x45, 0, 5, 0xAA, 0xFF, 104, 105])]), ([], []),
    ([], [([1], reset 8)]), ([], []),
    ([([1], 5)], [([1], [0x61, 0x45, 0, 5, 0xAA, 0xFF, 104, 105])]),
    ([], [([1], reset 7)]), ([], []), ([], []), ([], []),
    ([([1], 5)], [([1], [0x61, 0x45, 0, 5, 0xAA, 0xFF, 104, 105])])] := by cases sx <;> decide +kernel

/-- The request with the critical option 9, which is not known. -/
def exForeign (sx : Bool) (a : Addr) : Copy :=
  ⟨a, exEnv, Server.exBad, match parse sx (recvBuf Server.exBad) (min Server.exBad.length 1152) with | .ok m => m | _ => create,
    { create with codeClass := 4, codeDetail := 2, payload := (ascii s!"Bad option number: {9}").take 127 }⟩

theorem exForeign_ok (sx : Bool) (a : Addr) : Foreign sx (exForeign sx a) := by
  have h : test (parse sx (recvBuf Server.exBad) (min Server.exBad.length 1152)) (fun m => decide (Asks m ∧ m.ops = [⟨9, []⟩])) = true := by cases sx <;> decide +kernel
  obtain ⟨m, hm, hq⟩ := test_ok h
  have hq := of_decide_eq_true hq
  have hcm : (exForeign sx a).m = m := by
    unfold exForeign
    dsimp only
    rw [hm]
  refine ⟨exEnv_app, exEnv_safe, exEnv_noFault, by rw [hcm]; exact hm, by rw [hcm]; exact hq.1, ?_, [], ⟨9, []⟩, [], by rw [hcm]; exact hq.2, ?_, show 9 % 2 = 1 by decide, by decide, rfl⟩
  · exact harmless_of (show harmlessB sx Server.exBad = true by cases sx <;> decide +kernel)
  · intro p hp; cases hp

/-- The application reports an error. -/
def exEnvErr : Env := { exEnv with handle := fun _ _ => .reply create (some .ENOMEM) }

/-- The application gives a response without a code. -/
def exEnvNoCode : Env := { exEnv with handle := fun _ _ => .reply create none }

theorem exEnvErr_safe : AppSafe exEnvErr := by
  refine ⟨fun t m => plain_nil rfl, fun t m resp b1 b2 body len rx h => ?_, exEnv_safe.rx, exEnv_safe.rxBody, exEnv_safe.rxEnd⟩
  cases h

theorem exEnvNoCode_safe : AppSafe exEnvNoCode := by
  refine ⟨fun t m => plain_nil rfl, fun t m resp b1 b2 body len rx h => ?_, exEnv_safe.rx, exEnv_safe.rxBody, exEnv_safe.rxEnd⟩
  cases h

/-- A request for such an application. -/
def exFail (sx : Bool) (a : Addr) (d : Bytes) (env : Env) : Copy :=
  ⟨a, env, d, match parse sx (recvBuf d) (min d.length 1152) with | .ok m => m | _ => create, create⟩

theorem exErr_ok {sx : Bool} {sepList : List Bytes} {a : Addr} {d : Bytes} (h : fairB sx d = true) : Fails sx sepList (exFail sx a d exEnvErr) (some .ENOMEM) := by
  have hf := exCopy_fair (sepList := sepList) (a := a) h
  exact ⟨exEnvErr_safe, ⟨⟨rfl, rfl, rfl⟩, rfl, rfl, rfl, rfl, rfl, rfl, rfl, rfl, rfl, rfl⟩, hf.carries, hf.asks, hf.known, hf.harmless, fun _ _ => rfl, fun h => by cases h⟩

theorem exNoCode_ok {sx : Bool} {sepList : List Bytes} {a : Addr} {d : Bytes} (h : fairB sx d = true) (ht : (exCopy sx a d).m.token ≠ []) :
    Fails sx sepList (exFail sx a d exEnvNoCode) none := by
  have hf := exCopy_fair (sepList := sepList) (a := a) h
  refine ⟨exEnvNoCode_safe, ⟨⟨rfl, rfl, rfl⟩, rfl, rfl, rfl, rfl, rfl, rfl, rfl, rfl, rfl, rfl⟩, hf.carries, hf.asks, hf.known, hf.harmless, fun _ _ => rfl,
    fun _ own b hb => ?_⟩
  have hs := (Client.formats_iff.1 hb).1.shape
  have hk : (answer sepList own (exFail sx a d exEnvNoCode).m create).codeClass = 0 ∧ (answer sepList own (exFail sx a d exEnvNoCode).m create).codeDetail = 0 ∧
      (answer sepList own (exFail sx a d exEnvNoCode).m create).token = (exCopy sx a d).m.token := by
    unfold answer
    split
    · exact ⟨rfl, rfl, rfl⟩
    · split <;> exact ⟨rfl, rfl, rfl⟩
  have := (hs.1 ⟨hk.1, hk.2.1⟩).1
  exact ht (hk.2.2.symm.trans this)

/-- An unknown option, its repetition, an error of the application and a response without a code, for requests with piggybacked and with separate responses; each
request is repeated. -/
def exFails (sx : Bool) : List Item :=
  [.request (exForeign sx [1]), .request (exForeign sx [1]), .failed (exFail sx [1] exGet exEnvErr) (some .ENOMEM), .failed (exFail sx [1] exGet exEnvNoCode) none,
    .request (exCopy sx [1] exGet), .failed (exFail sx [1] exGet exEnvErr) (some .ENOMEM), .failed (exFail sx [1] exGetB exEnvErr) (some .ENOMEM),
    .failed (exFail sx [1] exGetB exEnvNoCode) none, .request (exCopy sx [1] exGetB)]

theorem exFails_ok (sx : Bool) : ∀ x ∈ exFails sx, x.Fair sx exSep ∧ x.client ∈ ([[1]] : List Addr) := by
  have h1 : fairB sx exGet = true := by cases sx <;> decide +kernel
  have h2 : fairB sx exGetB = true := by cases sx <;> decide +kernel
  have t1 : (exCopy sx [1] exGet).m.token ≠ [] := by cases sx <;> decide +kernel
  have t2 : (exCopy sx [1] exGetB).m.token ≠ [] := by cases sx <;> decide +kernel
  have m1 : ([1] : Addr) ∈ ([[1]] : List Addr) := by decide
  intro x hx
  unfold exFails at hx
  rcases List.mem_cons.1 hx with rfl | hx
  · exact ⟨Or.inr (exForeign_ok sx [1]), m1⟩
  rcases List.mem_cons.1 hx with rfl | hx
  · exact ⟨Or.inr (exForeign_ok sx [1]), m1⟩
  rcases List.mem_cons.1 hx with rfl | hx
  · exact ⟨exErr_ok h1, m1⟩
  rcases List.mem_cons.1 hx with rfl | hx
  · exact ⟨exNoCode_ok h1 t1, m1⟩
  rcases List.mem_cons.1 hx with rfl | hx
  · exact exRequest_fair h1 m1
  rcases List.mem_cons.1 hx with rfl | hx
  · exact ⟨exErr_ok h1, m1⟩
  rcases List.mem_cons.1 hx with rfl | hx
  · exact ⟨exErr_ok h2, m1⟩
  rcases List.mem_cons.1 hx with rfl | hx
  · exact ⟨exNoCode_ok h2 t2, m1⟩
  rcases List.mem_cons.1 hx with rfl | hx
  · exact exRequest_fair h2 m1
  · cases hx

/-- The theorem applies to them. -/
example (sx : Bool) : ∃ tr, drive sx (init 100 exSep exPool) (exFails sx) = .ok tr ∧
    tr.map (fun o => (calls o, sends o, arms o)) = run exSep ⟨100, fun _ => blank⟩ (exFails sx) :=
  C145_machine sx 100 exSep exPool [[1]] (by decide) (exFails sx) (exFails_ok sx)

/-- What happens: after a failure the request is executed again when it is repeated, and a separate response that was announced does not come. -/
example (sx : Bool) : (run exSep ⟨100, fun _ => blank⟩ (exFails sx)).map (fun x => (x.1.map (fun y => (y.1, y.2.msgId)), x.2.1)) = [
    ([], [([1], [0x60, 0x82, 0, 1, 0xFF] ++ ascii "Bad option number: 9")]), ([], [([1], [0x60, 0x82, 0, 1, 0xFF] ++ ascii "Bad option number: 9")]),
    ([([1], 5)], []), ([([1], 5)], []), ([([1], 5)], [([1], [0x61, 0x45, 0, 5, 0xAA, 0xFF, 104, 105])]),
    ([], [([1], [0x61, 0x45, 0, 5, 0xAA, 0xFF, 104, 105])]),
    ([([1], 6)], [([1], emptyAck 6)]), ([([1], 6)], [([1], emptyAck 6)]),
    ([([1], 6)], [([1], emptyAck 6), ([1], [0x41, 0x45, 0, 102, 0xAB, 0xFF, 104, 105])])] := by cases sx <;> decide +kernel

end FreeCoAP.Server.Machine
