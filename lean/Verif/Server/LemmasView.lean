import Verif.Server.LemmasStep

/-! # What an event does to one sender -/

namespace FreeCoAP.Server

open FreeCoAP.Msg

/-! ## Observations and transactions in outcomes -/

theorem generate_obs {env : Env} {t : Trans} {L : Large} {m : Msg} {r : BRes} {o : List Obs}
    (h : generate env t L m = .ok (r, o)) : o = [] ∨ o = [.call t.addr m] := by
  unfold generate at h
  repeat' split at h
  all_goals first | cases h; done | (cases h; simp)

theorem Outcome.addr {sx : Bool} {sepList : List Bytes} {env : Env} {t : Trans} {L : Large} {id : Nat} {d : Bytes} {r : TRes}
    (h : Outcome sx sepList env t L id d r) :
    r.trans = Trans.zero ∨ (r.trans.active = t.active ∧ r.trans.addr = t.addr) := by
  cases h <;> first | exact Or.inl rfl | exact Or.inr ⟨rfl, rfl⟩

theorem Outcome.obs_addr {sx : Bool} {sepList : List Bytes} {env : Env} {t : Trans} {L : Large} {id : Nat} {d : Bytes} {r : TRes}
    (h : Outcome sx sepList env t L id d r) : ∀ x ∈ r.obs, x.addr = t.addr := by
  have hpre : ∀ m, ∀ x ∈ preAck sepList t m, x.addr = t.addr := by
    intro m x hx
    unfold preAck at hx
    split at hx
    · simp at hx; subst hx; rfl
    · simp at hx
  have hrx : ∀ r' : BRes, ∀ x ∈ rxObs t.addr r', x.addr = t.addr := by
    intro r' x hx
    simp only [rxObs, List.mem_map] at hx
    obtain ⟨y, -, rfl⟩ := hx
    rfl
  have harm : ∀ m, ∀ x ∈ armObs env t.addr m, x.addr = t.addr := by
    intro m x hx
    unfold armObs at hx
    split at hx
    · simp at hx; subst hx; rfl
    · simp at hx
  have hgen : ∀ {m r o}, generate env (cleared env t) L m = .ok (r, o) → ∀ x ∈ o, x.addr = t.addr := by
    intro m r o hg x hx
    rcases generate_obs hg with rfl | rfl
    · simp at hx
    · simp at hx; subst hx; rfl
  cases h with
  | again => simp
  | lost e h o ho =>
    rcases ho with rfl | ⟨-, -, i, -, rfl⟩
    · simp
    · simp [Obs.addr]
  | dupAck => simp [Obs.addr]
  | dupResp => simp [Obs.addr]
  | dupFail => simp
  | dupNon => simp
  | acked => simp
  | ackFail => simp
  | rejected m hm h1 h2 h3 o ho =>
    rcases ho with rfl | ⟨-, rfl⟩
    · simp
    · simp [Obs.addr]
  | ackLost => simp
  | genFail m hm hn hp r' o2 hg e he =>
    intro x hx
    simp only [List.mem_append] at hx
    rcases hx with (hx | hx) | hx
    · exact hpre _ _ hx
    · exact hgen hg _ hx
    · exact hrx _ _ hx
  | sendFail m hm hn hp r' o2 hg he o3 e ho hf =>
    intro x hx
    simp only [List.mem_append] at hx
    rcases hx with ((hx | hx) | hx) | hx
    · exact hpre _ _ hx
    · exact hgen hg _ hx
    · exact hrx _ _ hx
    · rcases ho with rfl | ⟨rfl, -⟩
      · simp at hx
      · simp at hx; subst hx; rfl
  | done m hm hn hp r' o2 hg he hs q p hq hp2 =>
    intro x hx
    simp only [List.mem_append] at hx
    rcases hx with (((hx | hx) | hx) | hx) | hx
    · exact hpre _ _ hx
    · exact hgen hg _ hx
    · exact hrx _ _ hx
    · simp at hx; subst hx; rfl
    · exact harm _ _ hx

theorem TimerOutcome.addr {env : Env} {t : Trans} {L : Large} {id : Nat} {r : TRes} (h : TimerOutcome env t L id r) :
    r.trans = Trans.zero ∨ (r.trans.active = t.active ∧ r.trans.addr = t.addr) := by
  cases h <;> first | exact Or.inl rfl | exact Or.inr ⟨rfl, rfl⟩

theorem TimerOutcome.obs_addr {env : Env} {t : Trans} {L : Large} {id : Nat} {r : TRes} (h : TimerOutcome env t L id r) :
    ∀ x ∈ r.obs, x.addr = t.addr := by
  cases h <;> simp [Obs.addr]

/-! ## The table of transactions -/

/-- No two active transactions have the same address. -/
def Distinct (ts : List Trans) : Prop :=
  ∀ (i j : Nat) (t u : Trans), ts[i]? = some t → ts[j]? = some u → t.active = true → u.active = true → t.addr = u.addr → i = j

/-- Unused places are zero. -/
def Zeroed (ts : List Trans) : Prop := ∀ (i : Nat) (t : Trans), ts[i]? = some t → t.active = false → t = Trans.zero

structure Tidy (s : Srv) : Prop where
  len : s.trans.length = NUM_TRANS
  distinct : Distinct s.trans
  zeroed : Zeroed s.trans

/-- Looking up a sender in the table. -/
def look (ts : List Trans) (a : Addr) : Option Trans := ts.find? (fun t => t.active && t.addr == a)

theorem ofAddr_look (s : Srv) (a : Addr) : ofAddr s a = look s.trans a := rfl

theorem look_some {ts : List Trans} {a : Addr} {t : Trans} (h : look ts a = some t) :
    ∃ i : Nat, ts[i]? = some t ∧ t.active = true ∧ t.addr = a := by
  unfold look at h
  have h1 := List.find?_some h
  have h2 := List.mem_of_find?_eq_some h
  obtain ⟨i, hi⟩ := List.mem_iff_getElem?.1 h2
  simp only [Bool.and_eq_true, beq_iff_eq] at h1
  exact ⟨i, hi, h1.1, h1.2⟩

theorem look_none {ts : List Trans} {a : Addr} : look ts a = none ↔ ∀ (i : Nat) (t : Trans), ts[i]? = some t → t.active = true → t.addr ≠ a := by
  unfold look
  rw [List.find?_eq_none]
  constructor
  · intro h i t hi ha hb
    exact h t (List.mem_iff_getElem?.2 ⟨i, hi⟩) (by simp [ha, hb])
  · intro h t ht hp
    obtain ⟨i, hi⟩ := List.mem_iff_getElem?.1 ht
    simp only [Bool.and_eq_true, beq_iff_eq] at hp
    exact h i t hi hp.1 hp.2

theorem look_eq {ts : List Trans} (hd : Distinct ts) {i : Nat} {t : Trans} (hi : ts[i]? = some t) (ha : t.active = true) :
    look ts t.addr = some t := by
  cases h : look ts t.addr with
  | none => exact absurd rfl (look_none.1 h i t hi ha)
  | some u =>
    obtain ⟨j, hj, hu, hau⟩ := look_some h
    have := hd i j t u hi hj ha hu hau.symm
    subst this
    rw [hi] at hj
    exact hj.symm

theorem look_findTrans {ts : List Trans} {a : Addr} : findTrans ts a = none ↔ look ts a = none := by
  unfold findTrans look
  rw [List.findIdx?_eq_none_iff, List.find?_eq_none]
  simp

/-- Replacing place `i` by a transaction of the same or of no sender. -/
theorem look_set {ts : List Trans} (hd : Distinct ts) {i : Nat} {t u : Trans} (hi : ts[i]? = some t) (ha : t.active = true)
    (hu : u = Trans.zero ∨ (u.active = t.active ∧ u.addr = t.addr)) :
    Distinct (ts.set i u) ∧ (∀ b, b ≠ t.addr → look (ts.set i u) b = look ts b) ∧
    look (ts.set i u) t.addr = (if u.active = true then some u else none) := by
  have hl : i < ts.length := by
    rw [List.getElem?_eq_some_iff] at hi; exact hi.1
  have hget : ∀ (j : Nat) (x : Trans), (ts.set i u)[j]? = some x → (j = i ∧ x = u) ∨ (j ≠ i ∧ ts[j]? = some x) := by
    intro j x hx
    rw [List.getElem?_set] at hx
    by_cases hji : i = j
    · subst hji; simp [hl] at hx; exact Or.inl ⟨rfl, hx.symm⟩
    · simp [hji] at hx; exact Or.inr ⟨fun h => hji h.symm, hx⟩
  have hself : (ts.set i u)[i]? = some u := by rw [List.getElem?_set]; simp [hl]
  have hoth : ∀ j : Nat, j ≠ i → (ts.set i u)[j]? = ts[j]? := by
    intro j hj; rw [List.getElem?_set, if_neg (fun h => hj h.symm)]
  have hact : u.active = true → u.addr = t.addr := by
    intro h; rcases hu with rfl | ⟨-, h'⟩
    · simp [Trans.zero] at h
    · exact h'
  have hdist : Distinct (ts.set i u) := by
    intro j k x y hj hk hx hy hxy
    rcases hget j x hj with ⟨rfl, rfl⟩ | ⟨hj1, hj2⟩
    · rcases hget k y hk with ⟨rfl, rfl⟩ | ⟨hk1, hk2⟩
      · rfl
      · rw [hact hx] at hxy
        exact absurd (hd _ _ _ _ hi hk2 ha hy hxy).symm hk1
    · rcases hget k y hk with ⟨rfl, rfl⟩ | ⟨hk1, hk2⟩
      · rw [hact hy] at hxy
        exact absurd (hd _ _ _ _ hj2 hi hx ha hxy) hj1
      · exact hd _ _ _ _ hj2 hk2 hx hy hxy
  refine ⟨hdist, ?_, ?_⟩
  · intro b hb
    cases h : look ts b with
    | none =>
      rw [look_none] at h ⊢
      intro j x hj hx
      rcases hget j x hj with ⟨rfl, rfl⟩ | ⟨hj1, hj2⟩
      · rw [hact hx]; exact fun h => hb h.symm
      · exact h j x hj2 hx
    | some x =>
      obtain ⟨j, hj, hx, rfl⟩ := look_some h
      have hji : j ≠ i := by
        rintro rfl
        rw [hi] at hj
        cases hj
        exact hb rfl
      exact look_eq hdist (i := j) (by rw [hoth j hji]; exact hj) hx
  · split
    · rename_i h
      rw [← hact h]
      exact look_eq hdist hself h
    · rename_i h
      rw [look_none]
      intro j x hj hx
      rcases hget j x hj with ⟨rfl, rfl⟩ | ⟨hj1, hj2⟩
      · exact absurd hx h
      · intro hxa
        exact hj1 (hd _ _ _ _ hj2 hi hx ha hxa)

/-- Replacing place `i` by a transaction of a new sender. -/
theorem look_set_new {ts : List Trans} (hd : Distinct ts) {i : Nat} {u : Trans} {a : Addr} (hl : i < ts.length)
    (hn : look ts a = none) (hu : u.active = true → u.addr = a) :
    Distinct (ts.set i u) ∧
    (∀ b, b ≠ a → look (ts.set i u) b = look ts b ∨
      (look (ts.set i u) b = none ∧ ∃ t, ts[i]? = some t ∧ t.active = true ∧ t.addr = b ∧ look ts b = some t)) ∧
    look (ts.set i u) a = (if u.active = true then some u else none) := by
  have hget : ∀ (j : Nat) (x : Trans), (ts.set i u)[j]? = some x → (j = i ∧ x = u) ∨ (j ≠ i ∧ ts[j]? = some x) := by
    intro j x hx
    rw [List.getElem?_set] at hx
    by_cases hji : i = j
    · subst hji; simp [hl] at hx; exact Or.inl ⟨rfl, hx.symm⟩
    · simp [hji] at hx; exact Or.inr ⟨fun h => hji h.symm, hx⟩
  have hself : (ts.set i u)[i]? = some u := by rw [List.getElem?_set]; simp [hl]
  have hoth : ∀ j : Nat, j ≠ i → (ts.set i u)[j]? = ts[j]? := by
    intro j hj; rw [List.getElem?_set, if_neg (fun h => hj h.symm)]
  have hdist : Distinct (ts.set i u) := by
    intro j k x y hj hk hx hy hxy
    rcases hget j x hj with ⟨rfl, rfl⟩ | ⟨hj1, hj2⟩
    · rcases hget k y hk with ⟨rfl, rfl⟩ | ⟨hk1, hk2⟩
      · rfl
      · rw [hu hx] at hxy
        exact absurd hxy.symm (look_none.1 hn _ _ hk2 hy)
    · rcases hget k y hk with ⟨rfl, rfl⟩ | ⟨hk1, hk2⟩
      · rw [hu hy] at hxy
        exact absurd hxy (look_none.1 hn _ _ hj2 hx)
      · exact hd _ _ _ _ hj2 hk2 hx hy hxy
  refine ⟨hdist, ?_, ?_⟩
  · intro b hb
    cases h : look ts b with
    | none =>
      left
      rw [look_none] at h ⊢
      intro j x hj hx
      rcases hget j x hj with ⟨rfl, rfl⟩ | ⟨hj1, hj2⟩
      · rw [hu hx]; exact fun h => hb h.symm
      · exact h j x hj2 hx
    | some x =>
      obtain ⟨j, hj, hx, rfl⟩ := look_some h
      by_cases hji : j = i
      · right
        subst hji
        refine ⟨?_, x, hj, hx, rfl, rfl⟩
        rw [look_none]
        intro k y hk hy
        rcases hget k y hk with ⟨rfl, rfl⟩ | ⟨hk1, hk2⟩
        · rw [hu hy]; exact fun h => hb h.symm
        · intro h
          exact hk1 (hd _ _ _ _ hk2 hj hy hx h)
      · left
        exact look_eq hdist (i := j) (by rw [hoth j hji]; exact hj) hx
  · split
    · rename_i h
      have := look_eq hdist hself h
      rwa [hu h] at this
    · rename_i h
      rw [look_none]
      intro j x hj hx
      rcases hget j x hj with ⟨rfl, rfl⟩ | ⟨hj1, hj2⟩
      · exact absurd hx h
      · exact look_none.1 hn _ _ hj2 hx

theorem zeroed_set {ts : List Trans} (hz : Zeroed ts) {i : Nat} {u : Trans} (hu : u = Trans.zero ∨ u.active = true) :
    Zeroed (ts.set i u) := by
  intro j x hj hx
  rw [List.getElem?_set] at hj
  split at hj
  · split at hj
    · cases hj
      rcases hu with h | h
      · exact h
      · rw [h] at hx; cases hx
    · cases hj
  · exact hz j x hj hx

theorem makeRoom_lt {s : Srv} (hl : s.trans.length = NUM_TRANS) : (makeRoom s).1 < s.trans.length := by
  unfold makeRoom
  split
  · rename_i i hi
    unfold findEmpty at hi
    rw [List.findIdx?_eq_some_iff_getElem] at hi
    obtain ⟨h, -⟩ := hi
    exact h
  · have gen : ∀ (ts : List Trans) (i mu old n : Nat), old < n → i + ts.length ≤ n → findOldestLoop ts i mu old < n := by
      intro ts
      induction ts with
      | nil => intro i mu old n h1 _; exact h1
      | cons t ts ih =>
        intro i mu old n h1 h2
        simp only [List.length_cons] at h2
        unfold findOldestLoop
        split
        · exact ih _ _ _ _ (by omega) (by omega)
        · exact ih _ _ _ _ h1 (by omega)
    have : findOldest s.trans < s.trans.length := by
      unfold findOldest
      apply gen
      · rw [hl]; decide
      · omega
    simp only
    split <;> exact this

/-- What an event does to one sender. -/
inductive View (sx : Bool) (s s' : Srv) (env : Env) (ev : Event) (o : List Obs) (e : Option Err) (a : Addr) : Prop where
  | untouched (h : ofAddr s' a = ofAddr s a) (ho : ∀ x ∈ o, x.addr ≠ a)
      (hd : ∀ d, ev = .datagram a d → env.acceptErr ≠ none ∨ (ofAddr s a = none ∧ env.createErr ≠ none))
      (ht : ∀ (i : Nat) (t : Trans), ev = .timer i → s.trans[i]? = some t → ofAddr s a = some t → t.armed = false)
  | evicted (b : Addr) (d : Bytes) (hb : b ≠ a) (hev : ev = .datagram b d) (h : ofAddr s' a = none) (t : Trans)
      (ht : ofAddr s a = some t) (hi : s.trans[(makeRoom s).1]? = some t) (hb' : ofAddr s b = none) (ho : ∀ x ∈ o, x.addr ≠ a)
  | exchange (d : Bytes) (t : Trans) (r : TRes) (L : Large) (hev : ev = .datagram a d) (h0 : env.acceptErr = none)
      (ht : ofAddr s a = some t ∨ (ofAddr s a = none ∧ t = fresh env a ∧ env.createErr = none))
      (hta : t.addr = a) (hact : t.active = true)
      (h : Outcome sx s.sepList env t L s.msgId d r) (ho : o = r.obs) (he : e = r.err)
      (h' : ofAddr s' a = if r.trans.active = true then some r.trans else none) (hid : s'.msgId = r.msgId)
      (hL : (ofAddr s a = some t ∧ L = s.large) ∨ (ofAddr s a = none ∧ t = fresh env a ∧ L = (makeRoom s).2.large))
  | timer (i : Nat) (t : Trans) (r : TRes) (hev : ev = .timer i) (hi : s.trans[i]? = some t) (ht : ofAddr s a = some t)
      (hta : t.addr = a) (hact : t.active = true) (har : t.armed = true)
      (h : TimerOutcome env t s.large s.msgId r) (ho : o = r.obs) (he : e = r.err)
      (h' : ofAddr s' a = if r.trans.active = true then some r.trans else none) (hid : s'.msgId = r.msgId)

theorem StepRel.tidy {sx : Bool} {s s' : Srv} {env : Env} {ev : Event} {o : List Obs} {e : Option Err}
    (h : StepRel sx s env ev s' o e) (ht : Tidy s) : Tidy s' := by
  obtain ⟨hl, hd, hz⟩ := ht
  cases h with
  | noAccept => exact ⟨hl, hd, hz⟩
  | noTimer => exact ⟨hl, hd, hz⟩
  | appId => exact ⟨hl, hd, hz⟩
  | known a d i t r h0 hi ha hda hf h =>
    refine ⟨by simpa using hl, (look_set hd hi ha h.addr).1, zeroed_set hz ?_⟩
    rcases h.addr with h | h
    · exact Or.inl h
    · exact Or.inr (by rw [h.1, ha])
  | timer i t r hi ha hr h =>
    refine ⟨by simpa using hl, (look_set hd hi ha h.addr).1, zeroed_set hz ?_⟩
    rcases h.addr with h | h
    · exact Or.inl h
    · exact Or.inr (by rw [h.1, ha])
  | noCreate a d e h0 hf he =>
    obtain ⟨m1, m2, m3, m4⟩ := makeRoom_eq s
    refine ⟨?_, ?_, ?_⟩
    · simp only [List.length_set, m3, hl]
    · simp only [m4]
      exact (look_set_new hd (makeRoom_lt hl) (look_findTrans.1 hf) (by simp [Trans.zero])).1
    · simp only [m4]
      exact zeroed_set hz (Or.inl rfl)
  | new a d r h0 hf he hi h =>
    refine ⟨by simpa using hl, (look_set_new hd hi (look_findTrans.1 hf) ?_).1, zeroed_set hz ?_⟩
    · rcases h.addr with h | h
      · rw [h]; simp [Trans.zero]
      · intro _; exact h.2
    · rcases h.addr with h | h
      · exact Or.inl h
      · exact Or.inr h.1

theorem step_view {sx : Bool} {s s' : Srv} {env : Env} {ev : Event} {o : List Obs} {e : Option Err}
    (h : StepRel sx s env ev s' o e) (ht : Tidy s) (a : Addr) : View sx s s' env ev o e a := by
  obtain ⟨hl, hd, hz⟩ := ht
  cases h with
  | noAccept a' d e h => exact .untouched rfl (by simp) (fun _ _ => Or.inl (by simp [h])) (by simp)
  | noTimer i h =>
    refine .untouched rfl (by simp) (by simp) ?_
    intro j t hj hjt hta
    cases hj
    have := h t hjt
    obtain ⟨k, hk, h1, h2⟩ := look_some hta
    cases hr : t.armed with
    | false => rfl
    | true => exact absurd ⟨h1, hr⟩ this
  | appId => exact .untouched rfl (by simp) (by simp) (by simp)
  | known a' d i t r h0 hi ha hda hf h =>
    obtain ⟨l1, l2, l3⟩ := look_set hd hi ha h.addr
    by_cases hb : a = a'
    · subst hb
      subst hda
      exact .exchange d t r _ rfl h0 (Or.inl (look_eq hd hi ha)) rfl ha h rfl rfl l3 rfl (Or.inl ⟨look_eq hd hi ha, rfl⟩)
    · subst hda
      refine .untouched (l2 a hb) ?_ ?_ (by simp)
      · intro x hx
        rw [h.obs_addr x hx]; exact fun h => hb h.symm
      · intro d' hd'
        injection hd' with h1
        exact absurd h1.symm hb
  | timer i t r hi ha hr h =>
    obtain ⟨l1, l2, l3⟩ := look_set hd hi ha h.addr
    by_cases hb : a = t.addr
    · subst hb
      exact .timer i t r rfl hi (look_eq hd hi ha) rfl ha hr h rfl rfl l3 rfl
    · refine .untouched (l2 a hb) ?_ (by simp) ?_
      · intro x hx
        rw [h.obs_addr x hx]; exact fun h => hb h.symm
      · intro j t' hj ht' hta
        cases hj
        rw [hi] at ht'
        cases ht'
        obtain ⟨k, hk, h1, h2⟩ := look_some hta
        exact absurd h2.symm hb
  | noCreate a' d e h0 hf he =>
    obtain ⟨m1, m2, m3, m4⟩ := makeRoom_eq s
    obtain ⟨l1, l2, l3⟩ := look_set_new hd (u := Trans.zero) (makeRoom_lt hl) (look_findTrans.1 hf) (by simp [Trans.zero])
    by_cases hb : a = a'
    · subst hb
      refine .untouched ?_ (by simp) (fun _ _ => Or.inr ⟨look_findTrans.1 hf, by simp [he]⟩) (by simp)
      simp only [ofAddr_look, m4]
      rw [l3, look_findTrans.1 hf]
      simp [Trans.zero]
    · rcases l2 a hb with h | ⟨h, t, h1, h2, h3, h4⟩
      · refine .untouched ?_ (by simp) ?_ (by simp)
        · simp only [ofAddr_look, m4]; exact h
        · intro d' hd'
          injection hd' with h1
          exact absurd h1.symm hb
      · refine .evicted a' d (fun h => hb h.symm) rfl ?_ t h4 h1 (look_findTrans.1 hf) (by simp)
        simp only [ofAddr_look, m4]; exact h
  | new a' d r h0 hf he hi h =>
    have hu : r.trans.active = true → r.trans.addr = a' := by
      rcases h.addr with h | h
      · rw [h]; simp [Trans.zero]
      · intro _; exact h.2
    obtain ⟨l1, l2, l3⟩ := look_set_new hd hi (look_findTrans.1 hf) hu
    by_cases hb : a = a'
    · subst hb
      exact .exchange d _ r _ rfl h0 (Or.inr ⟨look_findTrans.1 hf, rfl, he⟩) rfl rfl h rfl rfl l3 rfl
        (Or.inr ⟨look_findTrans.1 hf, rfl, rfl⟩)
    · have hob : ∀ x ∈ r.obs, x.addr ≠ a := by
        intro x hx
        rw [h.obs_addr x hx]; exact fun h => hb h.symm
      rcases l2 a hb with h' | ⟨h', t, h1, h2, h3, h4⟩
      · refine .untouched h' hob ?_ (by simp)
        intro d' hd'
        injection hd' with h1
        exact absurd h1.symm hb
      · exact .evicted a' d (fun h => hb h.symm) rfl h' t h4 h1 (look_findTrans.1 hf) hob

theorem init_tidy (id : Nat) (sepList : List Bytes) (pool : Mem.Pool) : Tidy (init id sepList pool) := by
  have key : ∀ (i : Nat) (t : Trans), (init id sepList pool).trans[i]? = some t → t = Trans.zero := by
    intro i t h
    simp only [init] at h
    rw [List.getElem?_replicate] at h
    split at h
    · injection h with h; exact h.symm
    · cases h
  refine ⟨by simp [init], ?_, fun i t h _ => key i t h⟩
  intro i j t u hi hj ht
  rw [key i t hi] at ht
  simp [Trans.zero] at ht

theorem Reach.tidy {sx : Bool} {evs : List (Env × Event)} {s : Srv} {tr : List (List Obs)} (h : Reach sx evs s tr) : Tidy s :=
  reach_induction (P := fun _ s _ => Tidy s) init_tidy (fun _ _ _ _ _ _ _ _ hP hs => hs.tidy hP) h

end FreeCoAP.Server
