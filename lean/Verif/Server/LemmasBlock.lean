import Verif.Server.Lemmas

/-! # The outcomes of handling a block -/

namespace FreeCoAP.Server

open FreeCoAP.Msg

/-- A response with a code. -/
def withCode (m : Msg) (c d : Nat) : Msg := { m with codeClass := c, codeDetail := d }

theorem Built.withCode {m : Msg} {c d : Nat} (h : Built m) (hc : c < 8) (hd : d < 32) : Built (withCode m c d) :=
  ⟨h.ver, h.type, hc, hd, h.msgId, h.token, h.sorted⟩

theorem finishCode_eq {b : Blk} {L : Large} {resp : Msg} {c d : Nat} (hc : c < 8) (hd : d < 32) :
    finishCode b L resp c d = .ok ⟨b, L, withCode resp c d, none, []⟩ := by
  unfold finishCode setCode
  rw [if_neg (by omega), if_neg (by omega)]
  rfl

theorem finishCode_cases (b : Blk) (L : Large) (resp : Msg) (c d : Nat) (hc : c < 8) :
    finishCode b L resp c d =
      if d < 32 then .ok ⟨b, L, withCode resp c d, none, []⟩ else .ok ⟨b, L, resp, some .EINVAL, []⟩ := by
  split
  · exact finishCode_eq hc (by assumption)
  · unfold finishCode setCode
    rw [if_neg (by omega), if_pos (by omega)]
    rfl

theorem clearBlockwise_fst (b : Blk) (L : Large) : (clearBlockwise b L).1 = Blk.none := by
  unfold clearBlockwise; split <;> rfl

theorem clearCode_eq {b : Blk} {L : Large} {resp : Msg} {c d : Nat} (hc : c < 8) (hd : d < 32) :
    clearCode b L resp c d = .ok ⟨Blk.none, (clearBlockwise b L).2, withCode resp c d, none, []⟩ := by
  unfold clearCode; rw [finishCode_eq hc hd, clearBlockwise_fst]

theorem failClear_eq (b : Blk) (L : Large) (resp : Msg) (e : Err) :
    failClear b L resp e = .ok ⟨Blk.none, (clearBlockwise b L).2, resp, some e, []⟩ := by
  unfold failClear; rw [clearBlockwise_fst]

/-- The transfer is a valid continuation for a block of the body. -/
def Fits2 (b : Blk) (req : Msg) (num2 : Nat) (uri : Bytes) : Prop :=
  req.codeDetail = b.type.method ∧ uri = b.blockUri ∧ num2 * b.block2Size = b.block2Next

/-- The outcomes of `nextBlock2`. -/
inductive Next2 (opMem payMem : Bool) (b : Blk) (L : Large) (req resp : Msg) (num2 : Nat) (uri : Bytes) : BRes → Prop where
  | bad (h : ¬ Fits2 b req num2 uri) :
      Next2 opMem payMem b L req resp num2 uri ⟨Blk.none, (clearBlockwise b L).2, withCode resp 4 0, none, []⟩
  | fail (h : Fits2 b req num2 uri) (e : Err) (resp' : Msg) (hb : Built resp → Built resp')
      (hf : opMem = true → payMem = true → b.blockDetail < 32 → ∀ szx, calcBlockSzx b.block2Size = .ok szx →
        b.block2Next >>> (szx + 4) > 1048576) :
      Next2 opMem payMem b L req resp num2 uri ⟨Blk.none, (clearBlockwise b L).2, resp', some e, []⟩
  | more (h : Fits2 b req num2 uri) (szx : Nat) (hz : calcBlockSzx b.block2Size = .ok szx)
      (hm : b.block2Next + b.block2Size ≤ b.bodyEnd) (val : Bytes)
      (hv : formatBlockVal 3 (b.block2Next >>> (szx + 4)) true b.block2Size = .ok val)
      (p : Nat) (bytes : Bytes) (hb : b.body = some (p, bytes)) (hl : b.block2Size ≤ bytes.length - b.block2Next) :
      Next2 opMem payMem b L req resp num2 uri
        ⟨{ b with block2Next := b.block2Next + b.block2Size }, L,
          withCode (setPayload (addOp resp BLOCK2 val) ((bytes.drop b.block2Next).take b.block2Size)) 2 31, none, []⟩
  | last (h : Fits2 b req num2 uri) (szx : Nat) (hz : calcBlockSzx b.block2Size = .ok szx)
      (hm : b.bodyEnd < b.block2Next + b.block2Size) (val : Bytes)
      (hv : formatBlockVal 3 (b.block2Next >>> (szx + 4)) false b.block2Size = .ok val)
      (p : Nat) (bytes : Bytes) (hb : b.body = some (p, bytes)) (hl : b.bodyEnd - b.block2Next ≤ bytes.length - b.block2Next)
      (hd : b.type = .get ∨ b.blockDetail < 32) :
      Next2 opMem payMem b L req resp num2 uri
        ⟨Blk.none, (clearBlockwise b L).2,
          withCode (setPayload (addOp resp BLOCK2 val) ((bytes.drop b.block2Next).take (b.bodyEnd - b.block2Next))) 2
            (if b.type = .get then 5 else b.blockDetail), none, []⟩

theorem formatBlockVal_err {num size szx : Nat} {more : Bool} {e : Err} (hs : calcBlockSzx size = .ok szx)
    (h : formatBlockVal 3 num more size = .err e) : num > 1048576 := by
  unfold formatBlockVal at h
  rw [hs, Out.bind_ok] at h
  simp only at h
  split at h
  · rename_i hc
    have : (1 <<< 20 : Nat) = 1048576 := by decide
    omega
  · cases h

theorem nextBlock2_cases {opMem payMem : Bool} {b : Blk} {L : Large} {req resp : Msg} {num2 : Nat} {uri : Bytes} {x : BRes}
    (h : nextBlock2 opMem payMem b L req resp num2 uri = .ok x) : Next2 opMem payMem b L req resp num2 uri x := by
  unfold nextBlock2 at h
  split at h
  · rename_i hc
    rw [clearCode_eq (by decide) (by decide)] at h
    cases h
    refine .bad ?_
    rintro ⟨h1, h2, h3⟩
    rcases hc with h | h | h
    · exact h h1
    · exact h h2
    · exact h h3
  · rename_i hc
    have hfit : Fits2 b req num2 uri := by
      refine ⟨?_, ?_, ?_⟩ <;> apply Classical.byContradiction <;> intro h' <;> apply hc
      · exact Or.inl h'
      · exact Or.inr (Or.inl h')
      · exact Or.inr (Or.inr h')
    split at h
    · cases h
    · rename_i e he
      rw [failClear_eq] at h
      cases h
      exact .fail hfit e resp id (fun _ _ _ szx hz => by rw [he] at hz; cases hz)
    · rename_i szx hz
      simp only at h
      by_cases hgt : b.block2Next + b.block2Size > b.bodyEnd
      · simp only [hgt, not_true_eq_false, decide_false, Bool.false_eq_true, if_false] at h
        split at h
        · cases h
        · rename_i e he
          rw [failClear_eq] at h
          cases h
          refine .fail hfit e resp id (fun _ _ _ szx' hz' => ?_)
          rw [hz] at hz'
          cases hz'
          exact formatBlockVal_err hz he
        · rename_i val hv
          split at h
          · rename_i hop
            rw [failClear_eq] at h
            cases h
            exact .fail hfit _ resp id (fun h => by rw [hop] at h; cases h)
          · split at h
            · cases h
            · rename_i p bytes hb
              split at h
              · cases h
              split at h
              · cases h
              · cases h
              · rename_i payload hr
                have hr' : b.bodyEnd - b.block2Next ≤ bytes.length - b.block2Next ∧
                    payload = (bytes.drop b.block2Next).take (b.bodyEnd - b.block2Next) := by
                  unfold rds at hr
                  split at hr
                  · rename_i hle
                    cases hr
                    simp only [List.length_drop] at hle
                    exact ⟨hle, rfl⟩
                  · cases hr
                split at h
                · rename_i hpm
                  rw [failClear_eq] at h
                  cases h
                  exact .fail hfit _ _ (fun hB => (hB.addOp _ _).setPayload _) (fun _ h => by rw [hpm] at h; cases h)
                · unfold clearCode at h
                  rw [finishCode_cases _ _ _ _ _ (by decide)] at h
                  by_cases hdl : (if b.type = .get then 5 else b.blockDetail) < 32
                  · rw [if_pos hdl] at h
                    cases h
                    rw [hr'.2, clearBlockwise_fst]
                    have e1 : (clearBlockwise { b with block2Next := b.block2Next + (b.bodyEnd - b.block2Next) } L).2
                        = (clearBlockwise b L).2 := rfl
                    simp only [e1]
                    refine .last hfit szx hz hgt val hv p bytes hb hr'.1 ?_
                    split at hdl
                    · left; assumption
                    · right; assumption
                  · rw [if_neg hdl] at h
                    cases h
                    rw [clearBlockwise_fst]
                    refine .fail hfit _ _ (fun hB => (hB.addOp _ _).setPayload _) (fun _ _ hd => ?_)
                    exfalso
                    split at hdl <;> omega
      · simp only [hgt, not_false_eq_true, decide_true, if_true] at h
        split at h
        · cases h
        · rename_i e he
          rw [failClear_eq] at h
          cases h
          refine .fail hfit e resp id (fun _ _ _ szx' hz' => ?_)
          rw [hz] at hz'
          cases hz'
          exact formatBlockVal_err hz he
        · rename_i val hv
          split at h
          · rename_i hop
            rw [failClear_eq] at h
            cases h
            exact .fail hfit _ resp id (fun h => by rw [hop] at h; cases h)
          · split at h
            · cases h
            · rename_i p bytes hb
              split at h
              · cases h
              split at h
              · cases h
              · cases h
              · rename_i payload hr
                have hr' : b.block2Size ≤ bytes.length - b.block2Next ∧
                    payload = (bytes.drop b.block2Next).take b.block2Size := by
                  unfold rds at hr
                  split at hr
                  · rename_i hle
                    cases hr
                    simp only [List.length_drop] at hle
                    exact ⟨hle, rfl⟩
                  · cases hr
                split at h
                · rename_i hpm
                  rw [failClear_eq] at h
                  cases h
                  exact .fail hfit _ _ (fun hB => (hB.addOp _ _).setPayload _) (fun _ h => by rw [hpm] at h; cases h)
                · rw [finishCode_eq (by decide) (by decide)] at h
                  cases h
                  rw [hr'.2]
                  exact .more hfit szx hz (by omega) val hv p bytes hb hr'.1

/-- The outcomes of `nextBlock1`. -/
inductive Next1 (env : Env) (again : Blk → Large → Msg → Out BRes) (b : Blk) (L : Large) (req resp : Msg) (num1 : Nat)
    (more1 : Bool) (uri : Bytes) : BRes → Prop where
  | bad (h : req.codeDetail ≠ b.type.method ∨ uri ≠ b.blockUri ∨ num1 * b.block1Size = b.block1Next ∧ req.payload = []) :
      Next1 env again b L req resp num1 more1 uri ⟨Blk.none, (clearBlockwise b L).2, withCode resp 4 0, none, []⟩
  | order (h1 : req.codeDetail = b.type.method) (h2 : uri = b.blockUri) (h : num1 * b.block1Size ≠ b.block1Next) :
      Next1 env again b L req resp num1 more1 uri ⟨Blk.none, (clearBlockwise b L).2, withCode resp 4 8, none, []⟩
  | large (h1 : req.codeDetail = b.type.method) (h2 : uri = b.blockUri) (h3 : num1 * b.block1Size = b.block1Next)
      (h4 : req.payload ≠ []) (h : b.bodyLen < b.block1Next + req.payload.length) :
      Next1 env again b L req resp num1 more1 uri ⟨Blk.none, (clearBlockwise b L).2, withCode resp 4 13, none, []⟩
  | fail (h1 : req.codeDetail = b.type.method) (h2 : uri = b.blockUri) (h3 : num1 * b.block1Size = b.block1Next)
      (h4 : req.payload ≠ []) (e : Err)
      (hf : env.opMem1 = true → ∀ szx, calcBlockSzx b.block1Size = .ok szx → b.block1Next >>> (szx + 4) > 1048576) :
      Next1 env again b L req resp num1 more1 uri ⟨Blk.none, (clearBlockwise b L).2, resp, some e, []⟩
  | more (h1 : req.codeDetail = b.type.method) (h2 : uri = b.blockUri) (h3 : num1 * b.block1Size = b.block1Next)
      (h4 : req.payload ≠ []) (h5 : b.block1Next + req.payload.length ≤ b.bodyLen) (hm : more1 = true)
      (szx : Nat) (hz : calcBlockSzx b.block1Size = .ok szx)
      (val : Bytes) (hv : formatBlockVal 3 (b.block1Next >>> (szx + 4)) true b.block1Size = .ok val)
      (p : Nat) (bytes bytes' : Bytes) (hb : b.body = some (p, bytes)) (hw : wrs bytes b.block1Next req.payload = .ok bytes') :
      Next1 env again b L req resp num1 more1 uri
        ⟨{ b with body := some (p, bytes'), block1Next := b.block1Next + req.payload.length
                  bodyEnd := b.bodyEnd + req.payload.length },
          L, withCode (addOp resp BLOCK1 val) 2 31, none, []⟩
  | whole (h1 : req.codeDetail = b.type.method) (h2 : uri = b.blockUri) (h3 : num1 * b.block1Size = b.block1Next)
      (h4 : req.payload ≠ []) (h5 : b.block1Next + req.payload.length ≤ b.bodyLen) (hm : more1 = false)
      (szx : Nat) (hz : calcBlockSzx b.block1Size = .ok szx)
      (val : Bytes) (hv : formatBlockVal 3 (b.block1Next >>> (szx + 4)) false b.block1Size = .ok val)
      (p : Nat) (bytes bytes' : Bytes) (hb : b.body = some (p, bytes)) (hw : wrs bytes b.block1Next req.payload = .ok bytes')
      (id : Nat) (hrx : b.blockRx = some id) (rr : RxRes)
      (hr : rr = env.rx id bytes' (b.bodyEnd + req.payload.length) req (addOp resp BLOCK1 val))
      (hlen : rr.body.length = bytes'.length) (x : BRes)
      (hx : (∃ e, rr.err = some e ∧ x = ⟨Blk.none, (clearBlockwise b L).2, rr.resp, some e, []⟩) ∨
        (rr.err = none ∧ rr.resp.codeClass ≠ 2 ∧ x = ⟨Blk.none, (clearBlockwise b L).2, rr.resp, none, []⟩) ∨
        (rr.err = none ∧ rr.resp.codeClass = 2 ∧ rr.bodyEnd > 0 ∧
          again { b with
            body := some (p, rr.body), block1Next := b.block1Next + req.payload.length, bodyEnd := rr.bodyEnd
            type := if b.type = .put1 then .put2 else .post2, blockDetail := rr.resp.codeDetail } L rr.resp = .ok x) ∨
        (rr.err = none ∧ rr.resp.codeClass = 2 ∧ rr.bodyEnd = 0 ∧
          ((rr.resp.codeDetail < 32 ∧
            x = ⟨Blk.none, (clearBlockwise b L).2, withCode rr.resp 2 rr.resp.codeDetail, none, []⟩) ∨
           (¬ rr.resp.codeDetail < 32 ∧ x = ⟨Blk.none, (clearBlockwise b L).2, rr.resp, some .EINVAL, []⟩)))) :
      Next1 env again b L req resp num1 more1 uri
        { x with rx := (id, bytes'.take (b.bodyEnd + req.payload.length)) :: x.rx }

theorem nextBlock1_cases {env : Env} {again : Blk → Large → Msg → Out BRes} {b : Blk} {L : Large} {req resp : Msg}
    {num1 : Nat} {more1 : Bool} {uri : Bytes} {x : BRes}
    (h : nextBlock1 env again b L req resp num1 more1 uri = .ok x) : Next1 env again b L req resp num1 more1 uri x := by
  unfold nextBlock1 at h
  split at h
  · rename_i hc
    rw [clearCode_eq (by decide) (by decide)] at h
    cases h
    refine .bad ?_
    rcases hc with h | h
    · exact Or.inl h
    · exact Or.inr (Or.inl h)
  rename_i hc
  have h1 : req.codeDetail = b.type.method := by
    apply Classical.byContradiction; intro h'; exact hc (Or.inl h')
  have h2 : uri = b.blockUri := by
    apply Classical.byContradiction; intro h'; exact hc (Or.inr h')
  split at h
  · rename_i hn
    rw [clearCode_eq (by decide) (by decide)] at h
    cases h
    exact .order h1 h2 hn
  rename_i h3
  have h3 : num1 * b.block1Size = b.block1Next := by simpa using h3
  split at h
  · rename_i hp
    rw [clearCode_eq (by decide) (by decide)] at h
    cases h
    exact .bad (Or.inr (Or.inr ⟨h3, hp⟩))
  rename_i h4
  split at h
  · cases h
  · rename_i e he
    rw [failClear_eq] at h
    cases h
    exact .fail h1 h2 h3 h4 e (fun _ szx hz => by rw [he] at hz; cases hz)
  rename_i szx hz
  split at h
  · rename_i hl
    rw [clearCode_eq (by decide) (by decide)] at h
    cases h
    exact .large h1 h2 h3 h4 hl
  rename_i h5
  have h5 : b.block1Next + req.payload.length ≤ b.bodyLen := by omega
  split at h
  · cases h
  · rename_i e he
    rw [failClear_eq] at h
    cases h
    refine .fail h1 h2 h3 h4 e (fun _ szx' hz' => ?_)
    rw [hz] at hz'
    cases hz'
    exact formatBlockVal_err hz he
  rename_i val hv
  split at h
  · rename_i hop
    rw [failClear_eq] at h
    cases h
    exact .fail h1 h2 h3 h4 _ (fun h => by rw [hop] at h; cases h)
  simp only at h
  split at h
  · cases h
  rename_i p bytes hb
  split at h
  · cases h
  · cases h
  rename_i bytes' hw
  have hcl : ∀ (c : Blk), c.body = some (p, bytes') ∨ (∃ z, c.body = some (p, z)) → (clearBlockwise c L).2 = (clearBlockwise b L).2 := by
    intro c hc
    have : ∃ z, c.body = some (p, z) := by
      rcases hc with h | h
      · exact ⟨_, h⟩
      · exact h
    obtain ⟨z, hz⟩ := this
    simp only [clearBlockwise, hz, hb]
  split at h
  · rename_i hm
    subst hm
    rw [finishCode_eq (by decide) (by decide)] at h
    cases h
    exact .more h1 h2 h3 h4 h5 rfl szx hz val hv p bytes bytes' hb hw
  rename_i hm
  have hm : more1 = false := by simpa using hm
  subst hm
  split at h
  · cases h
  rename_i id hrx
  split at h
  · cases h
  rename_i hlen
  have hlen : (env.rx id bytes' (b.bodyEnd + req.payload.length) req (addOp resp BLOCK1 val)).body.length = bytes'.length := by
    simpa using hlen
  split at h
  · rename_i e he
    cases h
    rw [clearBlockwise_fst, hcl _ (Or.inr ⟨_, rfl⟩)]
    exact .whole h1 h2 h3 h4 h5 rfl szx hz val hv p bytes bytes' hb hw id hrx _ rfl hlen
      ⟨Blk.none, (clearBlockwise b L).2, _, some e, []⟩ (Or.inl ⟨e, he, rfl⟩)
  rename_i he
  split at h
  · rename_i hne
    cases h
    rw [clearBlockwise_fst, hcl _ (Or.inr ⟨_, rfl⟩)]
    exact .whole h1 h2 h3 h4 h5 rfl szx hz val hv p bytes bytes' hb hw id hrx _ rfl hlen
      ⟨Blk.none, (clearBlockwise b L).2, _, none, []⟩ (Or.inr (Or.inl ⟨he, hne, rfl⟩))
  rename_i h2c
  have h2c : (env.rx id bytes' (b.bodyEnd + req.payload.length) req (addOp resp BLOCK1 val)).resp.codeClass = 2 := by
    simpa using h2c
  split at h
  · rename_i hbe
    split at h
    · rename_i x' hx'
      cases h
      exact .whole h1 h2 h3 h4 h5 rfl szx hz val hv p bytes bytes' hb hw id hrx _ rfl hlen x'
        (Or.inr (Or.inr (Or.inl ⟨he, h2c, hbe, hx'⟩)))
    · cases h
    · cases h
  · rename_i hbe
    unfold clearCode at h
    rw [finishCode_cases _ _ _ _ _ (by decide)] at h
    rw [clearBlockwise_fst, hcl _ (Or.inr ⟨_, rfl⟩)] at h
    have hbe' : (env.rx id bytes' (b.bodyEnd + req.payload.length) req (addOp resp BLOCK1 val)).bodyEnd = 0 := by
      exact Nat.eq_zero_of_not_pos hbe
    by_cases hd : (env.rx id bytes' (b.bodyEnd + req.payload.length) req (addOp resp BLOCK1 val)).resp.codeDetail < 32
    · simp only [hd, if_true] at h
      cases h
      exact .whole h1 h2 h3 h4 h5 rfl szx hz val hv p bytes bytes' hb hw id hrx _ rfl hlen
        ⟨Blk.none, (clearBlockwise b L).2, _, none, []⟩ (Or.inr (Or.inr (Or.inr ⟨he, h2c, hbe', Or.inl ⟨hd, rfl⟩⟩)))
    · simp only [hd, if_false] at h
      cases h
      exact .whole h1 h2 h3 h4 h5 rfl szx hz val hv p bytes bytes' hb hw id hrx _ rfl hlen
        ⟨Blk.none, (clearBlockwise b L).2, _, some .EINVAL, []⟩
        (Or.inr (Or.inr (Or.inr ⟨he, h2c, hbe', Or.inr ⟨hd, rfl⟩⟩)))

/-- The block sizes reduced to those asked for. -/
def shrink (b : Blk) (o1 o2 : Option Block) : Blk :=
  { b with
    block1Size := match o1 with | some o => min o.size b.block1Size | none => b.block1Size
    block2Size := match o2 with | some o => min o.size b.block2Size | none => b.block2Size }

/-- The outcomes of `nextBlockStep`. -/
inductive NextStep (env : Env) (opMem : Bool) (again : Blk → Large → Msg → Out BRes) (b : Blk) (L : Large) (req resp : Msg) :
    BRes → Prop where
  | badOp (h : (∃ e, parseBlockOp BLOCK1 req.ops = .err e) ∨ (∃ e, parseBlockOp BLOCK2 req.ops = .err e)) :
      NextStep env opMem again b L req resp ⟨Blk.none, (clearBlockwise b L).2, withCode resp 4 0, none, []⟩
  | regular (o1 o2 : Option Block) (h1 : parseBlockOp BLOCK1 req.ops = .ok o1) (h2 : parseBlockOp BLOCK2 req.ops = .ok o2)
      (ht : b.type = .regular) : NextStep env opMem again b L req resp ⟨shrink b o1 o2, L, resp, none, []⟩
  | two (o1 o2 : Option Block) (h1 : parseBlockOp BLOCK1 req.ops = .ok o1) (h2 : parseBlockOp BLOCK2 req.ops = .ok o2)
      (ht : b.type = .get ∨ b.type = .put2 ∨ b.type = .post2) (x : BRes)
      (hx : Next2 opMem env.payMem (shrink b o1 o2) L req resp (numOf o2) (cpath 256 req.ops) x) :
      NextStep env opMem again b L req resp x
  | one (o1 o2 : Option Block) (h1 : parseBlockOp BLOCK1 req.ops = .ok o1) (h2 : parseBlockOp BLOCK2 req.ops = .ok o2)
      (ht : b.type = .put1 ∨ b.type = .post1) (x : BRes)
      (hx : Next1 env again (shrink b o1 o2) L req resp (numOf o1) (moreOf o1) (cpath 256 req.ops) x) :
      NextStep env opMem again b L req resp x

theorem shrink1_eq (b : Blk) (o : Option Block) :
    shrink1 b o = { b with block1Size := match o with | some o => min o.size b.block1Size | none => b.block1Size } := by
  cases o with
  | none => rfl
  | some o =>
    simp only [shrink1]
    by_cases h : o.size < b.block1Size
    · rw [if_pos h, Nat.min_eq_left (by omega)]
    · rw [if_neg h, Nat.min_eq_right (by omega)]

theorem shrink2_eq (b : Blk) (o : Option Block) :
    shrink2 b o = { b with block2Size := match o with | some o => min o.size b.block2Size | none => b.block2Size } := by
  cases o with
  | none => rfl
  | some o =>
    simp only [shrink2]
    by_cases h : o.size < b.block2Size
    · rw [if_pos h, Nat.min_eq_left (by omega)]
    · rw [if_neg h, Nat.min_eq_right (by omega)]

theorem shrink_eq (b : Blk) (o1 o2 : Option Block) : shrink2 (shrink1 b o1) o2 = shrink b o1 o2 := by
  rw [shrink2_eq, shrink1_eq]; rfl

theorem shrink_type (b : Blk) (o1 o2 : Option Block) : (shrink b o1 o2).type = b.type := rfl
theorem shrink_clear (b : Blk) (L : Large) (o1 o2 : Option Block) : clearBlockwise (shrink b o1 o2) L = clearBlockwise b L := rfl

theorem nextBlockStep_cases {env : Env} {opMem : Bool} {again : Blk → Large → Msg → Out BRes} {b : Blk} {L : Large}
    {req resp : Msg} {x : BRes} (h : nextBlockStep env opMem again b L req resp = .ok x) :
    NextStep env opMem again b L req resp x := by
  unfold nextBlockStep at h
  split at h
  · cases h
  · rename_i e he
    rw [clearCode_eq (by decide) (by decide)] at h
    cases h
    exact .badOp (Or.inl ⟨e, he⟩)
  rename_i o1 h1
  simp only at h
  split at h
  · cases h
  · rename_i e he
    rw [clearCode_eq (by decide) (by decide)] at h
    cases h
    have : ∀ c : Blk, c.body = b.body → (clearBlockwise c L).2 = (clearBlockwise b L).2 := by
      intro c hc; simp only [clearBlockwise, hc]
    rw [this _ (by cases o1 with | none => rfl | some o => simp only [shrink1]; split <;> rfl)]
    exact .badOp (Or.inr ⟨e, he⟩)
  rename_i o2 h2
  rw [shrink_eq, uriStr_eq _ _ (by decide)] at h
  simp only at h
  split at h
  · rename_i ht; cases h; exact NextStep.regular (b := b) o1 o2 h1 h2 ht
  · rename_i ht; exact NextStep.two (b := b) o1 o2 h1 h2 (Or.inl ht) x (nextBlock2_cases (b := shrink b o1 o2) h)
  · rename_i ht; exact NextStep.two (b := b) o1 o2 h1 h2 (Or.inr (Or.inl ht)) x (nextBlock2_cases (b := shrink b o1 o2) h)
  · rename_i ht; exact NextStep.two (b := b) o1 o2 h1 h2 (Or.inr (Or.inr ht)) x (nextBlock2_cases (b := shrink b o1 o2) h)
  · rename_i ht; exact NextStep.one (b := b) o1 o2 h1 h2 (Or.inl ht) x (nextBlock1_cases (b := shrink b o1 o2) h)
  · rename_i ht; exact NextStep.one (b := b) o1 o2 h1 h2 (Or.inr ht) x (nextBlock1_cases (b := shrink b o1 o2) h)

end FreeCoAP.Server
