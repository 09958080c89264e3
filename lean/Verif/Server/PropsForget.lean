import Verif.Server.PropsMachine
import Verif.Server.LemmasTime

/-!
# C146: the server does what the machine does, for any number of clients
-/

namespace FreeCoAP.Server.Machine

open FreeCoAP.Msg
open FreeCoAP.Server.Simple (Copy exCopy exCopy_fair fairB)

/-- The server and the machine with the times correspond. -/
structure Kept (s : Srv) (b : Book) : Prop where
  core : Corr (ofAddr s) s.msgId b.core
  used : ∀ a, b.used a = (ofAddr s a).map (·.lastUse)
  pos : ∀ a n, b.used a = some n → 0 < n

/-- The clients that the server knows. -/
def known (s : Srv) : List Addr := (s.trans.filter (·.active)).map (·.addr)

theorem Kept.knows {s : Srv} {b : Book} (h : Kept s b) (hT : Tidy s) : b.Knows (known s) := by
  refine ⟨?_, fun a => ?_⟩
  · unfold known
    rw [List.nodup_iff_pairwise_ne, List.pairwise_map, List.pairwise_filter, List.pairwise_iff_getElem]
    intro i j hi hj hij h1 h2 he
    have := hT.distinct i j _ _ (List.getElem?_eq_getElem hi) (List.getElem?_eq_getElem hj) h1 h2 he
    omega
  · rw [h.used]
    constructor
    · intro hm
      obtain ⟨u, hu, rfl⟩ := List.mem_map.1 hm
      obtain ⟨hu, hact⟩ := List.mem_filter.1 hu
      obtain ⟨i, hi⟩ := List.mem_iff_getElem?.1 hu
      rw [ofAddr_look, look_eq hT.distinct hi hact]
      exact fun h => by cases h
    · intro hne
      cases hu : ofAddr s a with
      | none => rw [hu] at hne; exact absurd rfl hne
      | some u =>
        obtain ⟨i, hi, hact, had⟩ := look_some hu
        exact List.mem_map.2 ⟨u, List.mem_filter.2 ⟨List.mem_iff_getElem?.2 ⟨i, hi⟩, hact⟩, had⟩

/-- A client is forgotten when all transactions are in use. -/
theorem must_forget {sx : Bool} {s s' : Srv} {a : Addr} {d : Bytes} {env : Env} {o : List Obs} {e : Option Err} (hT : Tidy s) (hf : NoFault env)
    (h : StepRel sx s env (.datagram a d) s' o e) (hn : ofAddr s a = none) (hall : ∀ u ∈ s.trans, u.active = true) :
    ¬ ∀ b, b ≠ a → ofAddr s' b = ofAddr s b := by
  intro hoth
  cases h with
  | noAccept _ _ e h => rw [hf.arrives.1] at h; cases h
  | noCreate _ _ e h0 hf' he => rw [hf.create] at he; cases he
  | known _ _ i t r h0 hi ha hd hf' h =>
    have := look_eq hT.distinct hi ha
    rw [hd, ← ofAddr_look, hn] at this
    cases this
  | new _ _ r h0 hf' he hi h =>
    have hget : s.trans[(makeRoom s).1]? = some s.trans[(makeRoom s).1] := List.getElem?_eq_getElem hi
    generalize s.trans[(makeRoom s).1] = u at hget
    have hact := hall u (List.mem_iff_getElem?.2 ⟨_, hget⟩)
    have hl := look_eq hT.distinct hget hact
    have hne : u.addr ≠ a := by
      intro he
      rw [he, ← ofAddr_look, hn] at hl
      cases hl
    have h1 := hoth u.addr hne
    rw [ofAddr_look, ofAddr_look, hl] at h1
    obtain ⟨j, hj, -, -⟩ := look_some h1
    dsimp only at hj
    rw [List.getElem?_set] at hj
    by_cases hij : (makeRoom s).1 = j
    · rw [if_pos hij, if_pos hi] at hj
      cases hj
      rcases h.addr with h | ⟨-, h⟩
      · rw [h] at hact; cases hact
      · exact hne h
    · rw [if_neg hij] at hj
      exact hij (hT.distinct _ _ u u hget hj hact hact rfl)

/-- Who is forgotten when a message comes. -/
theorem room {sx : Bool} {s s' : Srv} {b : Book} {a : Addr} {d : Bytes} {env : Env} {o : List Obs} {e : Option Err} (hk : Kept s b) (hT : Tidy s)
    (hf : NoFault env) (h : StepRel sx s env (.datagram a d) s' o e) :
    ∃ b' w, b.Room a b' ∧ Corr w s.msgId b'.core ∧ w a = ofAddr s a ∧ (∀ c, c ≠ a → ofAddr s' c = w c) ∧ (∀ c, b'.used c = (w c).map (·.lastUse)) ∧
      ∀ c n, b'.used c = some n → 0 < n := by
  have h8 : NUM_TRANS = 8 := rfl
  have hkn := hk.knows hT
  by_cases hfull : ofAddr s a = none ∧ ∀ u ∈ s.trans, u.active = true
  · obtain ⟨hn, hall⟩ := hfull
    obtain ⟨-, h2 | ⟨-, -, u, hu, hne, hlu, hnone, hsame⟩⟩ := others_step h hT
    · exact absurd h2 (must_forget hT hf h hn hall)
    have hpos : ∀ v ∈ s.trans, v.active = true ∧ 0 < v.lastUse := by
      intro v hv
      obtain ⟨i, hi⟩ := List.mem_iff_getElem?.1 hv
      refine ⟨hall v hv, hk.pos v.addr _ ?_⟩
      rw [hk.used, ofAddr_look, look_eq hT.distinct hi (hall v hv)]
      rfl
    obtain ⟨u', hu', hmin⟩ := makeRoom_oldest hT hpos
    rw [hu] at hu'
    cases hu'
    refine ⟨b.forget u.addr, fun c => if c = u.addr then none else ofAddr s c, Or.inr ⟨by rw [hk.used, hn]; rfl, ⟨known s, hkn, ?_⟩, u.addr, u.lastUse, ?_, ?_, rfl⟩,
      ?_, ?_, ?_, ?_, ?_⟩
    · unfold known
      rw [List.length_map, List.filter_eq_self.2 hall, hT.len, h8]
    · rw [hk.used, hlu]; rfl
    · intro c n hc
      rw [hk.used] at hc
      cases hx : ofAddr s c with
      | none => rw [hx] at hc; cases hc
      | some v =>
        rw [hx] at hc
        cases hc
        obtain ⟨i, hi, -, -⟩ := look_some hx
        exact hmin v (List.mem_iff_getElem?.2 ⟨i, hi⟩)
    · refine Corr.put (n := b.core.own) hk.core (fun c hc => if_neg hc) hk.core.own (fun _ => rfl) (fun v hv => ?_)
      rw [if_pos rfl] at hv
      cases hv
    · exact if_neg (fun he => hne he.symm)
    · intro c hc
      dsimp only
      by_cases hcu : c = u.addr
      · rw [if_pos hcu, hcu, hnone]
      · rw [if_neg hcu]
        exact hsame c hc hcu
    · intro c
      show (if c = u.addr then none else b.used c) = _
      dsimp only
      by_cases hcu : c = u.addr
      · rw [if_pos hcu, if_pos hcu]; rfl
      · rw [if_neg hcu, if_neg hcu, hk.used]
    · intro c n hc
      change (if c = u.addr then none else b.used c) = _ at hc
      by_cases hcu : c = u.addr
      · rw [if_pos hcu] at hc; cases hc
      · rw [if_neg hcu] at hc
        exact hk.pos c n hc
  · refine ⟨b, ofAddr s, Or.inl ⟨rfl, ?_⟩, hk.core, rfl, ?_, hk.used, hk.pos⟩
    · by_cases hn : ofAddr s a = none
      · refine Or.inr ⟨known s, hkn, ?_⟩
        unfold known
        rw [List.length_map, ← h8, ← hT.len]
        refine Nat.lt_of_le_of_ne (List.length_filter_le _ _) (fun he => hfull ⟨hn, ?_⟩)
        exact List.filter_eq_self.1 (List.filter_sublist.eq_of_length he)
      · refine Or.inl ?_
        rw [hk.used]
        cases hx : ofAddr s a with
        | none => exact absurd hx hn
        | some v => exact fun h => by cases h
    · obtain ⟨-, h2 | ⟨hn, hall, -⟩⟩ := others_step h hT
      · exact h2
      · exact absurd ⟨hn, hall⟩ hfull

/-- After a step. -/
theorem kept_step {s' : Srv} {b : Book} {x : Item} {w : Addr → Option Trans} {sepList : List Bytes} (hnow : 0 < x.now)
    (hcore : Corr (ofAddr s') s'.msgId (step sepList b.core x).1) (hoth : ∀ c, c ≠ x.client → ofAddr s' c = w c)
    (hused : ∀ c, b.used c = (w c).map (·.lastUse)) (hpos : ∀ c n, b.used c = some n → 0 < n) (hx : (ofAddr s' x.client).map (·.lastUse) = b.contact x) :
    Kept s' (b.step sepList x).1 := by
  refine ⟨hcore, fun c => ?_, fun c n hc => ?_⟩
  · show (if c = x.client then b.contact x else b.used c) = _
    by_cases hcx : c = x.client
    · rw [if_pos hcx, hcx, hx]
    · rw [if_neg hcx, hused, hoth c hcx]
  · change (if c = x.client then b.contact x else b.used c) = _ at hc
    by_cases hcx : c = x.client
    · rw [if_pos hcx] at hc
      unfold Book.contact at hc
      split at hc
      · cases hc; exact hnow
      · split at hc
        · cases hc; exact hnow
        · cases hc
      · split at hc
        · cases hc; exact hnow
        · cases hc
      · cases hc
      · split at hc
        · cases hc; exact hnow
        · cases hc
      · split at hc
        · split at hc
          · cases hc; exact hnow
          · cases hc
        · exact hpos _ n hc
    · rw [if_neg hcx] at hc
      exact hpos c n hc

theorem all_books {sx : Bool} {sepList : List Bytes} : ∀ (xs : List Item) (s : Srv) (b : Book), Kept s b → Tidy s → SOK s → s.sepList = sepList →
    (∀ x ∈ xs, x.Fair sx sepList ∧ 0 < x.now) →
    ∃ tr, drive sx s xs = .ok tr ∧ b.Runs sepList xs (tr.map (fun o => (calls o, sends o, arms o)))
  | [], s, b, _, _, _, _, _ => ⟨[], rfl, .nil b⟩
  | x :: xs, s, b, hk, hT, hs, hsl, hall => by
    subst hsl
    obtain ⟨hf, hnow⟩ := hall x List.mem_cons_self
    obtain ⟨⟨s1, o, e⟩, h, hs1⟩ := step_good (fair_safe hf) (fair_harmless hf) hs
    have hrel := step_rel h
    have hdrive : ∀ tr, drive sx s1 xs = .ok tr → drive sx s (x :: xs) = .ok (o :: tr) := by
      intro tr k1
      unfold drive
      rw [h]
      dsimp only
      rw [k1]
    have htail := fun b' hk' => all_books xs s1 b' hk' (hrel.tidy hT) hs1 hrel.sepList (fun y hy => hall y (List.mem_cons_of_mem _ hy))
    cases x with
    | request c =>
      obtain ⟨b', w, hr, hc, hw, hoth, hu, hp⟩ := room hk hT (served hf).fine hrel
      obtain ⟨h1, h2, h3⟩ := request_step hc hw hoth hT (served hf) hrel
      obtain ⟨tr, k1, k2⟩ := htail _ (kept_step (x := .request c) (b := b') hnow h2 hoth hu hp h3)
      refine ⟨_, hdrive tr k1, ?_⟩
      rw [List.map_cons, h1]
      exact .message (x := .request c) (fun _ _ h => by cases h) hr k2
    | failed c err =>
      obtain ⟨b', w, hr, hc, hw, hoth, hu, hp⟩ := room hk hT hf.fine hrel
      obtain ⟨h1, h2, h3⟩ := failed_step hc hw hoth hT hf hrel
      obtain ⟨tr, k1, k2⟩ := htail _ (kept_step (x := .failed c err) (b := b') hnow h2 hoth hu hp h3)
      refine ⟨_, hdrive tr k1, ?_⟩
      rw [List.map_cons, h1]
      exact .message (x := .failed c err) (fun _ _ h => by cases h) hr k2
    | odd a env d m =>
      obtain ⟨b', w, hr, hc, hw, hoth, hu, hp⟩ := room hk hT hf.2.1 hrel
      obtain ⟨h1, h2, h3⟩ := odd_step hc hw hoth hT hf.2.1 hf.2.2.1 hf.2.2.2.2.1 hf.2.2.2.2.2 h
      obtain ⟨tr, k1, k2⟩ := htail _ (kept_step (x := .odd a env d m) (b := b') hnow h2 hoth hu hp h3)
      refine ⟨_, hdrive tr k1, ?_⟩
      rw [List.map_cons, h1]
      exact .message (x := .odd a env d m) (fun _ _ h => by cases h) hr k2
    | junk a env d =>
      obtain ⟨b', w, hr, hc, hw, hoth, hu, hp⟩ := room hk hT hf.2.1 hrel
      obtain ⟨h1, h2, h3⟩ := junk_step hc hw hoth hT hf.2.1 hf.2.2.1 hf.2.2.2 h
      obtain ⟨tr, k1, k2⟩ := htail _ (kept_step (x := .junk a env d) (b := b') hnow h2 hoth hu hp h3)
      refine ⟨_, hdrive tr k1, ?_⟩
      rw [List.map_cons, h1]
      exact .message (x := .junk a env d) (fun _ _ h => by cases h) hr k2
    | note a env d m =>
      obtain ⟨b', w, hr, hc, hw, hoth, hu, hp⟩ := room hk hT hf.2.1 hrel
      obtain ⟨h1, h2, h3⟩ := note_step hc hw hoth hT hf.2.1 hf.2.2.1 hf.2.2.2.2 hrel
      obtain ⟨tr, k1, k2⟩ := htail _ (kept_step (x := .note a env d m) (b := b') hnow h2 hoth hu hp h3)
      refine ⟨_, hdrive tr k1, ?_⟩
      rw [List.map_cons, h1]
      exact .message (x := .note a env d m) (fun _ _ h => by cases h) hr k2
    | late a env =>
      obtain ⟨h1, h2, hoth, h3⟩ := late_step hk.core hT hf.2 rfl hrel
      obtain ⟨tr, k1, k2⟩ := htail _ (kept_step (x := .late a env) (b := b) hnow h2 hoth hk.used hk.pos (h3.trans (by rw [← hk.used]; rfl)))
      refine ⟨_, hdrive tr k1, ?_⟩
      rw [List.map_cons, h1]
      exact .late k2

/-- C146: the server does what the machine may do, for any number of clients. -/
theorem C146_machine (sx : Bool) (id : Nat) (sepList : List Bytes) (pool : Mem.Pool) (xs : List Item) (h : ∀ x ∈ xs, x.Fair sx sepList ∧ 0 < x.now) :
    ∃ tr, drive sx (init id sepList pool) xs = .ok tr ∧
      Book.Runs sepList ⟨⟨id % 65536, fun _ => blank⟩, fun _ => none⟩ xs (tr.map (fun o => (calls o, sends o, arms o))) :=
  all_books xs _ _ ⟨corr_init id sepList pool, fun a => by rw [ofAddr_init]; rfl, fun a n hx => by cases hx⟩ (init_tidy _ _ _) (init_sok id sepList pool) rfl h

/-! ## Examples -/

/-- Nine clients, an acknowledgement and a late one, and then the request of the first client again. -/
def exMany (sx : Bool) : List Item :=
  ([[1], [2], [3], [4], [5], [6], [7], [8], [9]] : List Addr).map (fun a => .request (exCopy sx a exGetB)) ++
    [exNote sx [3] (emptyAck 103), .late [4] exEnv, .late [3] exEnv, .request (exCopy sx [1] exGetB)]

theorem exMany_ok (sx : Bool) : ∀ x ∈ exMany sx, x.Fair sx exSep ∧ 0 < x.now := by
  have h2 : fairB sx exGetB = true := by cases sx <;> decide +kernel
  have h3 : noteB sx (emptyAck 103) = true := by cases sx <;> decide +kernel
  have hp : 0 < exEnv.now := by decide
  intro x hx
  unfold exMany at hx
  rcases List.mem_append.1 hx with hx | hx
  · obtain ⟨a, -, rfl⟩ := List.mem_map.1 hx
    exact ⟨Or.inl (exCopy_fair h2), hp⟩
  rcases List.mem_cons.1 hx with rfl | hx
  · exact ⟨(exNote_fair (As := [[3]]) h3 (by decide)).1, hp⟩
  rcases List.mem_cons.1 hx with rfl | hx
  · exact ⟨⟨exEnv_safe, exEnv_noFault⟩, hp⟩
  rcases List.mem_cons.1 hx with rfl | hx
  · exact ⟨⟨exEnv_safe, exEnv_noFault⟩, hp⟩
  rcases List.mem_cons.1 hx with rfl | hx
  · exact ⟨Or.inl (exCopy_fair h2), hp⟩
  · cases hx

/-- The theorem applies to them. -/
example (sx : Bool) : ∃ tr, drive sx (init 100 exSep exPool) (exMany sx) = .ok tr ∧
    Book.Runs exSep ⟨⟨100, fun _ => blank⟩, fun _ => none⟩ (exMany sx) (tr.map (fun o => (calls o, sends o, arms o))) :=
  C146_machine sx 100 exSep exPool (exMany sx) (exMany_ok sx)

/-- The first client has been forgotten: its request is executed again. -/
example (sx : Bool) : test (drive sx (init 100 exSep exPool) (exMany sx)) (fun tr =>
    decide (tr.map (fun o => (calls o).map (·.1)) = [[[1]], [[2]], [[3]], [[4]], [[5]], [[6]], [[7]], [[8]], [[9]], [], [], [], [[1]]])) = true := by
  cases sx <;> decide +kernel

/-- Eight clients, and a datagram of two bytes from a ninth. -/
def exCrowd (sx : Bool) : List Item :=
  ([[1], [2], [3], [4], [5], [6], [7], [8]] : List Addr).map (fun a => .request (exCopy sx a exGetB)) ++
    [.junk [9] exEnv [0x40, 1], .request (exCopy sx [1] exGetB)]

theorem exCrowd_ok (sx : Bool) : ∀ x ∈ exCrowd sx, x.Fair sx exSep ∧ 0 < x.now := by
  have h2 : fairB sx exGetB = true := by cases sx <;> decide +kernel
  have h3 : junkB sx [0x40, 1] = true := by cases sx <;> decide +kernel
  have hp : 0 < exEnv.now := by decide
  intro x hx
  unfold exCrowd at hx
  rcases List.mem_append.1 hx with hx | hx
  · obtain ⟨a, -, rfl⟩ := List.mem_map.1 hx
    exact ⟨Or.inl (exCopy_fair h2), hp⟩
  rcases List.mem_cons.1 hx with rfl | hx
  · exact ⟨(exJunk_fair (As := [[9]]) h3 (by decide)).1, hp⟩
  rcases List.mem_cons.1 hx with rfl | hx
  · exact ⟨Or.inl (exCopy_fair h2), hp⟩
  · cases hx

/-- Even a datagram that cannot be read makes the server forget another client: the repeated request of the first one is executed again. -/
theorem C146_crowd (sx : Bool) : (∀ x ∈ exCrowd sx, x.Fair sx exSep ∧ 0 < x.now) ∧ test (drive sx (init 100 exSep exPool) (exCrowd sx)) (fun tr =>
    decide (tr.map (fun o => (calls o).map (·.1)) = [[[1]], [[2]], [[3]], [[4]], [[5]], [[6]], [[7]], [[8]], [], [[1]]])) = true :=
  ⟨exCrowd_ok sx, by cases sx <;> decide +kernel⟩

end FreeCoAP.Server.Machine
