import Verif.EndToEnd.LemmasRound

/-! # The server side of an upload -/

namespace FreeCoAP.EndToEnd

open FreeCoAP.Msg
open FreeCoAP.Server

/-- What is known of a response to a request of the upload. -/
def UpResp (sx : Bool) (method : Nat) (uri : Bytes) (b1 : Nat) (m x : Msg) : Prop :=
  m.codeDetail = method → cpath 256 m.ops = uri → x.codeClass = 2 → ∀ o, parseBlockOp BLOCK1 m.ops = .ok o →
    Ordinary sx x ∧ ∀ blk, parseBlockOp BLOCK1 x.ops = .ok (some blk) → blk.size ≤ b1 ∧ moreOf o = true

/-- What is known of the transfer: `G` holds of the bytes received and of the size of the blocks. -/
def UpBlk (G : Bytes → Nat → Prop) (method : Nat) (uri : Bytes) (b : Blk) : Prop :=
  NotTaking b ∨ ∃ rx room got size, G got size ∧ CollectT method uri rx room got size b

/-- What `G` has to satisfy for the requests in `S`. -/
structure UpOK (S : Msg → Prop) (G : Bytes → Nat → Prop) (Q : Bytes → Prop) (method : Nat) (uri : Bytes) (b1 : Nat) : Prop where
  start : G [] b1
  bound : ∀ got size, G got size → size ≤ b1
  more : ∀ got size m o, G got size → S m → Continues method uri got.length size o m → moreOf o = true → G (got ++ m.payload) (sizeOf2 o size)
  whole : ∀ got size m o, G got size → S m → Continues method uri got.length size o m → moreOf o = false → Q (got ++ m.payload)

theorem sizeOf2_le (o : Option Block) (size : Nat) : sizeOf2 o size ≤ size := by
  cases o with
  | none => exact Nat.le_refl _
  | some o => exact Nat.min_le_right _ _

theorem addOp_ordinary {sx : Bool} {m : Msg} {k : Nat} {val : Bytes} (hm : Ordinary sx m) (hk : k < 141) (hv : val.length = 3) :
    Ordinary sx (addOp m k val) := by
  intro o ho
  simp only [addOp, opListAdd_eq] at ho
  rcases List.mem_cons.1 ((ins_perm _ _).mem_iff.1 ho) with rfl | ho
  · exact ⟨by simp only; omega, by simp only; omega, fun _ => ⟨by simp only; omega, by simp only; omega⟩⟩
  · exact hm o ho

theorem block1_filter {resp : Msg} (hr : NoBlock1 resp) (hs : Sorted resp.ops) (val : Bytes) :
    (addOp resp BLOCK1 val).ops.filter (fun o => o.num = BLOCK1) = [⟨BLOCK1, val⟩] := by
  simp only [addOp, opListAdd_eq]
  rw [ins_filter _ _ _ hs, List.filter_append]
  have : resp.ops.filter (fun o => o.num = BLOCK1) = [] := by
    rw [List.filter_eq_nil_iff]
    intro o ho
    simpa using hr o ho
  rw [this]
  simp

theorem parseBlockOp_absent {k : Nat} : ∀ {ops : List Op}, (∀ o ∈ ops, o.num ≠ k) → parseBlockOp k ops = .ok none
  | [], _ => rfl
  | op :: ops, h => by
    unfold parseBlockOp
    have hc : ¬(op.num = BLOCK1 ∧ k = BLOCK1 ∨ op.num = BLOCK2 ∧ k = BLOCK2) := by
      have := h op (List.mem_cons_self ..)
      rintro (⟨h1, h2⟩ | ⟨h1, h2⟩) <;> exact this (h1.trans h2.symm)
    rw [if_neg hc]
    exact parseBlockOp_absent (fun o ho => h o (List.mem_cons_of_mem _ ho))

/-- A request while nothing is being received. -/
theorem idle_resp {sx : Bool} {env : Env} {opMem : Bool} {again : Blk → Large → Msg → Out BRes} {b : Blk} {L : Large} {m : Msg} {x : BRes}
    (hb : NotTaking b) (hr : b.type ≠ .regular) (h : NextStep env opMem again b L m create x) (he : x.err = none) :
    x.resp.codeClass = 2 → Ordinary sx x.resp ∧ parseBlockOp BLOCK1 x.resp.ops = .ok none := by
  have key : ∀ val, val.length = 3 → Ordinary sx (addOp create BLOCK2 val) ∧ parseBlockOp BLOCK1 (addOp create BLOCK2 val).ops = .ok none := by
    intro val hv
    refine ⟨addOp_ordinary (create_ordinary sx) (by decide) hv, parseBlockOp_absent ?_⟩
    intro o ho
    simp only [addOp, opListAdd_eq] at ho
    rcases List.mem_cons.1 ((ins_perm _ _).mem_iff.1 ho) with rfl | ho
    · exact show BLOCK2 ≠ BLOCK1 by decide
    · cases ho
  cases h with
  | badOp h => intro h; cases h
  | regular o1 o2 h1 h2 ht => exact absurd ht hr
  | one o1 o2 h1 h2 ht x hx =>
    rcases ht with h | h
    · exact absurd h hb.1
    · exact absurd h hb.2
  | two o1 o2 h1 h2 ht x hx =>
    cases hx with
    | bad => intro h; cases h
    | fail => cases he
    | more h szx hz hm val hv => exact fun _ => key val (Client.formatBlockVal_len hv)
    | last h szx hz hm val hv => exact fun _ => key val (Client.formatBlockVal_len hv)

/-- A request while a body is being received. -/
theorem taken_up {sx : Bool} {S : Msg → Prop} {G : Bytes → Nat → Prop} {Q : Bytes → Prop} {env : Env} {method room size b1 : Nat} {uri got : Bytes}
    {rx : Option Nat} {m resp : Msg} {x : BRes} (hU : UpOK S G Q method uri b1) (hG : G got size)
    (hS : m.payload ≠ [] → S m) (hr : NoBlock1 resp) (hso : Sorted resp.ops) (hor : Ordinary sx resp)
    (h : Taken env method room size uri got rx m resp x) :
    (∀ y ∈ x.rx, Q y.2) ∧ (x.err = none → (((∃ y ∈ x.rx, x.resp.codeClass = 2 → Succeeds env y) ∧ ∀ o, parseBlockOp BLOCK1 m.ops = .ok o → moreOf o = false) ∨ UpResp sx method uri b1 m x.resp) ∧ UpBlk G method uri x.blk) := by
  have hno : ∀ (r : Msg) (d : Nat), x.resp = withCode r 4 d → UpResp sx method uri b1 m x.resp := by
    intro r d h _ _ h2
    rw [h] at h2
    cases h2
  cases h with
  | badOp h h1 h2 h3 h4 => rw [h3, h4]; exact ⟨by simp, fun _ => ⟨Or.inr (hno _ _ h2), Or.inl NotTaking.none⟩⟩
  | bad o ho h h1 h2 h3 h4 => rw [h3, h4]; exact ⟨by simp, fun _ => ⟨Or.inr (hno _ _ h2), Or.inl NotTaking.none⟩⟩
  | order o ho h h1 h2 h3 h4 => rw [h3, h4]; exact ⟨by simp, fun _ => ⟨Or.inr (hno _ _ h2), Or.inl NotTaking.none⟩⟩
  | large o h hl h1 h2 h3 h4 => rw [h3, h4]; exact ⟨by simp, fun _ => ⟨Or.inr (hno _ _ h2), Or.inl NotTaking.none⟩⟩
  | fail o h h1 hf h4 => rw [h4]; exact ⟨by simp, fun h => absurd h h1⟩
  | more o h hl hm h1 val hv hvl h2 h3 h4 =>
    rw [h4]
    refine ⟨by simp, fun _ => ⟨Or.inr ?_, Or.inr ⟨rx, room, _, _, hU.more _ _ _ _ hG (hS h.payload) h hm, h3⟩⟩⟩
    intro _ _ _ o' ho'
    have e : o' = o := by have := h.option; rw [ho'] at this; cases this; rfl
    subst e
    rw [h2]
    refine ⟨addOp_ordinary hor (by decide) hvl, ?_⟩
    intro blk hb
    change parseBlockOp BLOCK1 (addOp resp BLOCK1 val).ops = _ at hb
    rw [parseBlockOp_of (Or.inl rfl) hvl hv (block1_filter hr hso val)] at hb
    cases hb
    exact ⟨Nat.le_trans (sizeOf2_le _ _) (hU.bound _ _ hG), hm⟩
  | whole o h hl hm id hid h3 h4 h5 =>
    rw [h4]
    refine ⟨?_, fun he => ⟨Or.inl ⟨⟨_, List.mem_singleton_self _, h5 he⟩, fun o' ho' => ?_⟩, Or.inl h3⟩⟩
    case refine_2 => have := h.option; rw [ho'] at this; cases this; exact hm
    intro y hy
    rw [List.mem_singleton] at hy
    subst hy
    exact hU.whole _ _ _ _ hG (hS h.payload) h hm

/-- A PUT or POST request without payload. -/
theorem taken_empty {env : Env} {method room size : Nat} {uri got : Bytes} {rx : Option Nat} {m resp : Msg} {x : BRes} (hp : m.payload = [])
    (h : Taken env method room size uri got rx m resp x) : x.rx = [] ∧ x.blk = Blk.none ∧ ∃ d, x.resp = withCode resp 4 d := by
  cases h with
  | badOp h h1 h2 h3 h4 => exact ⟨h4, h3, _, h2⟩
  | bad o ho h h1 h2 h3 h4 => exact ⟨h4, h3, _, h2⟩
  | order o ho h h1 h2 h3 h4 => exact ⟨h4, h3, _, h2⟩
  | large o h => exact absurd hp h.payload
  | fail o h => exact absurd hp h.payload
  | more o h => exact absurd hp h.payload
  | whole o h => exact absurd hp h.payload

theorem up_gen {sx : Bool} {S : Msg → Prop} {G : Bytes → Nat → Prop} {Q : Bytes → Prop} {env : Env} {a : Addr} {method b1 : Nat} {uri : Bytes}
    (hme : method = 2 ∨ method = 3) (hU : UpOK S G Q method uri b1) (happ : AppOK env) (hoff : Takes sx a method uri b1 env)
    {t : Trans} {L : Large} {m : Msg} {r : BRes} {o2 : List Obs} (hta : t.addr = a) (hB : UpBlk G method uri t.blk)
    (hS : (m.codeDetail = 2 ∨ m.codeDetail = 3) → m.payload ≠ [] → S m ∧ m.codeDetail = method ∧ cpath 256 m.ops = uri)
    (hg : generate env t L m = .ok (r, o2)) :
    (∀ y ∈ r.rx, Q y.2) ∧ (r.err = none → (((∃ y ∈ r.rx, r.resp.codeClass = 2 → Succeeds env y) ∧ ∀ o, parseBlockOp BLOCK1 m.ops = .ok o → moreOf o = false) ∨ UpResp sx method uri b1 m r.resp) ∧ UpBlk G method uri r.blk) := by
  by_cases hk : AllKnown m
  case neg =>
    obtain ⟨-, e1, e3, -, ⟨-, -, e4⟩ | ⟨-, e4⟩⟩ := generate_bad hk hg
    · rw [e1, e3]
      refine ⟨by simp, fun _ => ⟨Or.inr ?_, hB⟩⟩
      intro _ _ h
      rw [e4] at h; cases h
    · rw [e1, e4]
      exact ⟨by simp, fun h => by cases h⟩
  case pos =>
  by_cases hreg : t.blk.type = .regular
  case neg =>
    have hn := nextBlockStep_cases (generate_next hk hreg hg).1
    rcases hB with hB | ⟨rx, room, got, size, hG, hC⟩
    · obtain ⟨e1, e2⟩ := idle_step hB hn
      rw [e1]
      refine ⟨by simp, fun he => ⟨Or.inr ?_, Or.inl e2⟩⟩
      intro _ _ h2 o ho
      obtain ⟨k1, k2⟩ := idle_resp (sx := sx) hB hreg hn he h2
      refine ⟨k1, fun blk hb => ?_⟩
      rw [k2] at hb
      cases hb
    · have hT := collect_step hC hn
      by_cases hmm : m.codeDetail = 2 ∨ m.codeDetail = 3
      · exact taken_up (resp := create) hU hG (fun hp => (hS hmm hp).1) (fun o ho => by cases ho) (show Sorted [] from List.Pairwise.nil) (create_ordinary sx) hT
      · cases hT with
        | badOp h h1 h2 h3 h4 =>
          rw [h3, h4]; exact ⟨by simp, fun _ => ⟨Or.inr (fun _ _ h => by rw [h2] at h; cases h), Or.inl NotTaking.none⟩⟩
        | bad o ho h h1 h2 h3 h4 =>
          rw [h3, h4]; exact ⟨by simp, fun _ => ⟨Or.inr (fun _ _ h => by rw [h2] at h; cases h), Or.inl NotTaking.none⟩⟩
        | order o ho h h1 h2 h3 h4 =>
          rw [h3, h4]; exact ⟨by simp, fun _ => ⟨Or.inr (fun _ _ h => by rw [h2] at h; cases h), Or.inl NotTaking.none⟩⟩
        | large o h => exact absurd (by rw [h.meth]; exact hme) hmm
        | fail o h => exact absurd (by rw [h.meth]; exact hme) hmm
        | more o h => exact absurd (by rw [h.meth]; exact hme) hmm
        | whole o h => exact absurd (by rw [h.meth]; exact hme) hmm
  case pos =>
    have hoff := hoff t m hta
    have hnt : NotTaking t.blk := by constructor <;> rw [hreg] <;> decide
    cases hh : env.handle t m with
    | reply resp err =>
      unfold generate at hg
      rw [if_neg (by rw [checkCritical_ne]; exact fun h => h hk), if_neg (by simp [hreg]), hh] at hg
      cases hg
      refine ⟨by simp, fun _ => ⟨Or.inr (fun g1 g2 g3 => ?_), Or.inl hnt⟩⟩
      rcases hoff g1 g2 with ⟨resp', err', h1, h2⟩ | ⟨resp', b2, bytes, len, rx, h1, -⟩
      · rw [hh] at h1
        cases h1
        exact absurd g3 h2
      · rw [hh] at h1
        cases h1
    | blockwise resp b1' b2 bytes len rx =>
      have hg' := generate_app hreg hk hh hg
      have hresp : Built resp := by have := happ.handle t m; rw [hh] at this; exact this
      by_cases hmm : m.codeDetail = 2 ∨ m.codeDetail = 3
      · rcases handleBlockwise_put hmm hg' with ⟨hx, -, hx2, -⟩ | ⟨blk, L', hs, hnx⟩
        · rw [hx2]
          exact ⟨by simp, fun h => absurd h hx⟩
        have hT := collect_step hs (nextBlockStep_cases hnx)
        by_cases hp : m.payload = []
        · obtain ⟨e1, e2, d, e3⟩ := taken_empty hp hT
          rw [e1, e2]
          refine ⟨by simp, fun _ => ⟨Or.inr (fun _ _ h => ?_), Or.inl NotTaking.none⟩⟩
          rw [e3] at h
          cases h
        · obtain ⟨s1, s2, s3⟩ := hS hmm hp
          rcases hoff s2 s3 with ⟨resp', err', g1, -⟩ | ⟨resp', b2', bytes', len', rx', g1, g2, g3⟩
          · rw [hh] at g1; cases g1
          · rw [hh] at g1
            cases g1
            rw [s2, s3] at hT
            exact taken_up hU hU.start (fun _ => s1) g2 hresp.sorted g3 hT
      · have hnm : m.codeDetail ≠ method := by rintro rfl; exact hmm hme
        have hR : UpResp sx method uri b1 m r.resp := fun h => absurd h hnm
        by_cases h1 : m.codeDetail = 1
        · rcases handleBlockwise_get h1 hg' with ⟨hx, -, hx2, -⟩ | ⟨blk, L', hs, hnx⟩
          · rw [hx2]
            exact ⟨by simp, fun h => absurd h hx⟩
          have : NotTaking blk := by
            constructor
            · intro h; rcases hs.type with h' | h' | h' <;> rw [h] at h' <;> cases h'
            · intro h; rcases hs.type with h' | h' | h' <;> rw [h] at h' <;> cases h'
          obtain ⟨e1, e2⟩ := idle_step this (nextBlockStep_cases hnx)
          rw [e1]
          exact ⟨by simp, fun _ => ⟨Or.inr hR, Or.inl e2⟩⟩
        · unfold handleBlockwise at hg'
          simp only at hg'
          split at hg'
          · cases hg'; exact ⟨by simp, fun h => by cases h⟩
          split at hg'
          · cases hg'; exact ⟨by simp, fun h => by cases h⟩
          split at hg'
          · cases hg'; exact ⟨by simp, fun h => by cases h⟩
          split at hg'
          · cases hg'; exact ⟨by simp, fun h => by cases h⟩
          rw [if_neg (by omega), clearCode_eq (by decide) (by decide)] at hg'
          cases hg'
          exact ⟨by simp, fun _ => ⟨Or.inr hR, Or.inl NotTaking.none⟩⟩

end FreeCoAP.EndToEnd
