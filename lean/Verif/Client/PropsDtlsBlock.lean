import Verif.Client.SpecDtlsBlock
import Verif.Client.PropsDtls

/-!
# C135: blockwise transfers of the client over DTLS
-/

namespace FreeCoAP.Client.Dtls

open FreeCoAP.Msg

theorem inRounds_any : ∀ rs : List Round, ∃ bs, InRounds rs bs
  | [] => ⟨[], .nil⟩
  | r :: rs => by
    obtain ⟨js, hj⟩ := stand_any r.is
    obtain ⟨bs, hb⟩ := inRounds_any rs
    exact ⟨_, .cons hj hb⟩

theorem exchange_stands (sx px : Bool) (x : XEnv) (req : Msg) (is : List Input) (u : World) :
    ∃ js v, Stand is js ∧ exchange sx px x req is u = (Client.exchange sx px { x with inputs := js } req, v) := by
  obtain ⟨js, h1, h2⟩ := C103_same_client sx px x req is u
  exact ⟨js, (exchange sx px x req is u).2, h1, by rw [← h2]⟩

theorem blockwise1_plain (sx px : Bool) (req : Msg) (size2 : Nat) (body : Bytes) (bodyLen : Nat) (rs : List Round) :
    ∀ (size1 szx start : Nat) (resp : Msg) (u : World), ∃ bs v, InRounds rs bs ∧
      blockwise1 sx px req size2 body bodyLen size1 szx start resp rs u =
        (Client.blockwise1 sx px req size2 body bodyLen size1 szx start resp bs, v) := by
  induction rs with
  | nil => exact fun size1 szx start resp u => ⟨[], u, .nil, rfl⟩
  | cons r rs ih =>
    intro size1 szx start resp u
    obtain ⟨bs0, hb0⟩ := inRounds_any rs
    obtain ⟨js0, hj0⟩ := stand_any r.is
    have hm : ∀ js, message1 { r.b with x := { r.b.x with inputs := js } } req size1 size2 szx start body bodyLen =
        message1 r.b req size1 size2 szx start body bodyLen := fun _ => rfl
    unfold blockwise1
    cases hmsg : message1 r.b req size1 size2 szx start body bodyLen with
    | ub => refine ⟨_, u, .cons hj0 hb0, ?_⟩; unfold Client.blockwise1; rw [hm, hmsg]
    | err e => refine ⟨_, u, .cons hj0 hb0, ?_⟩; unfold Client.blockwise1; rw [hm, hmsg]
    | ok x =>
      cases x with
      | error e => refine ⟨_, u, .cons hj0 hb0, ?_⟩; unfold Client.blockwise1; rw [hm, hmsg]
      | ok p =>
        obtain ⟨msg, payloadLen⟩ := p
        dsimp only
        obtain ⟨js, v, hj, he⟩ := exchange_stands sx px r.b.x msg r.is u
        rw [he]
        have hpl : ∀ bs, Client.blockwise1 sx px req size2 body bodyLen size1 szx start resp ({ r.b with x := { r.b.x with inputs := js } } :: bs) =
            Client.blockwise1 sx px req size2 body bodyLen size1 szx start resp ({ r.b with x := { r.b.x with inputs := js } } :: bs) := fun _ => rfl
        conv at hpl => intro bs; rhs; unfold Client.blockwise1
        simp only [hm, hmsg] at hpl
        cases hx : Client.exchange sx px { r.b.x with inputs := js } msg with
        | ub => exact ⟨_, v, .cons hj hb0, by rw [hpl, hx]⟩
        | err e => exact ⟨_, v, .cons hj hb0, by rw [hpl, hx]⟩
        | ok q =>
          obtain ⟨o, q⟩ := q
          cases q with
          | none => exact ⟨_, v, .cons hj hb0, by rw [hpl, hx]⟩
          | some q =>
            cases q with
            | error e => exact ⟨_, v, .cons hj hb0, by rw [hpl, hx]⟩
            | ok resp' =>
              simp only [hx] at hpl
              dsimp only
              by_cases c1 : resp'.codeClass ≠ 2
              · rw [if_pos c1]
                exact ⟨_, v, .cons hj hb0, by rw [hpl, if_pos c1]⟩
              · rw [if_neg c1]
                by_cases c2 : resp'.codeDetail ≠ 31 ∧ resp'.codeDetail ≠ 1 ∧ resp'.codeDetail ≠ 4
                · rw [if_pos c2]
                  exact ⟨_, v, .cons hj hb0, by rw [hpl, if_neg c1, if_pos c2]⟩
                · rw [if_neg c2]
                  simp only [if_neg c1, if_neg c2] at hpl
                  cases hp : parseBlockOp BLOCK1 resp'.ops with
                  | ub => exact ⟨_, v, .cons hj hb0, by rw [hpl, hp]⟩
                  | err e => exact ⟨_, v, .cons hj hb0, by rw [hpl, hp]⟩
                  | ok z =>
                    cases z with
                    | none => exact ⟨_, v, .cons hj hb0, by rw [hpl, hp]⟩
                    | some blk =>
                      simp only [hp] at hpl
                      dsimp only
                      by_cases c3 : blk.num * (if blk.size < size1 then blk.size else size1) ≠ start
                      · rw [if_pos c3]
                        exact ⟨_, v, .cons hj hb0, by rw [hpl, if_pos c3]⟩
                      · rw [if_neg c3]
                        simp only [if_neg c3] at hpl
                        cases hz : calcBlockSzx (if blk.size < size1 then blk.size else size1) with
                        | ub => exact ⟨_, v, .cons hj hb0, by rw [hpl, hz]⟩
                        | err e => exact ⟨_, v, .cons hj hb0, by rw [hpl, hz]⟩
                        | ok szx' =>
                          simp only [hz] at hpl
                          dsimp only
                          by_cases c4 : start + payloadLen ≥ bodyLen
                          · rw [if_pos c4]
                            exact ⟨_, v, .cons hj hb0, by rw [hpl, if_pos c4]⟩
                          · rw [if_neg c4]
                            obtain ⟨bs, v', hb, hr⟩ := ih (if blk.size < size1 then blk.size else size1) szx' (start + payloadLen) Msg.create v
                            exact ⟨_, v', .cons hj hb, by rw [hpl, if_neg c4, hr]; rfl⟩

theorem blockwise2_plain (sx px : Bool) (req : Msg) (bodyLen : Nat) (rs : List Round) :
    ∀ (size2 szx start : Nat) (resp : Msg) (body : Bytes) (u : World), ∃ bs v, InRounds rs bs ∧
      blockwise2 sx px req bodyLen size2 szx start resp body rs u =
        (Client.blockwise2 sx px req bodyLen size2 szx start resp body bs, v) := by
  induction rs with
  | nil => exact fun size2 szx start resp body u => ⟨[], u, .nil, rfl⟩
  | cons r rs ih =>
    intro size2 szx start resp body u
    obtain ⟨bs0, hb0⟩ := inRounds_any rs
    obtain ⟨js0, hj0⟩ := stand_any r.is
    have hm : ∀ js, message2 { r.b with x := { r.b.x with inputs := js } } req size2 szx start = message2 r.b req size2 szx start := fun _ => rfl
    unfold blockwise2
    cases hmsg : message2 r.b req size2 szx start with
    | ub => refine ⟨_, u, .cons hj0 hb0, ?_⟩; unfold Client.blockwise2; rw [hm, hmsg]
    | err e => refine ⟨_, u, .cons hj0 hb0, ?_⟩; unfold Client.blockwise2; rw [hm, hmsg]
    | ok x =>
      cases x with
      | error e => refine ⟨_, u, .cons hj0 hb0, ?_⟩; unfold Client.blockwise2; rw [hm, hmsg]
      | ok msg =>
        dsimp only
        obtain ⟨js, v, hj, he⟩ := exchange_stands sx px r.b.x msg r.is u
        rw [he]
        have hpl : ∀ bs, Client.blockwise2 sx px req bodyLen size2 szx start resp body ({ r.b with x := { r.b.x with inputs := js } } :: bs) =
            Client.blockwise2 sx px req bodyLen size2 szx start resp body ({ r.b with x := { r.b.x with inputs := js } } :: bs) := fun _ => rfl
        conv at hpl => intro bs; rhs; unfold Client.blockwise2
        simp only [hm, hmsg] at hpl
        cases hx : Client.exchange sx px { r.b.x with inputs := js } msg with
        | ub => exact ⟨_, v, .cons hj hb0, by rw [hpl, hx]⟩
        | err e => exact ⟨_, v, .cons hj hb0, by rw [hpl, hx]⟩
        | ok q =>
          obtain ⟨o, q⟩ := q
          cases q with
          | none => exact ⟨_, v, .cons hj hb0, by rw [hpl, hx]⟩
          | some q =>
            cases q with
            | error e => exact ⟨_, v, .cons hj hb0, by rw [hpl, hx]⟩
            | ok resp' =>
              simp only [hx] at hpl
              dsimp only
              cases ht : take2 req.codeDetail size2 start resp' body bodyLen with
              | ub => exact ⟨_, v, .cons hj hb0, by rw [hpl, ht]⟩
              | err e => exact ⟨_, v, .cons hj hb0, by rw [hpl, ht]⟩
              | ok z =>
                cases z with
                | ret x body' => exact ⟨_, v, .cons hj hb0, by rw [hpl, ht]⟩
                | next size2' szx' start' body' =>
                  simp only [ht] at hpl
                  dsimp only
                  obtain ⟨bs, v', hb, hr⟩ := ih size2' szx' start' Msg.create body' v
                  exact ⟨_, v', .cons hj hb, by rw [hpl, hr]; rfl⟩

theorem upload_plain (sx px : Bool) (req resp : Msg) (size1 size2 : Nat) (body : Bytes) (bodyLen : Nat) (rs : List Round) (u : World) :
    ∃ bs v, InRounds rs bs ∧ upload sx px req resp size1 size2 body bodyLen rs u = (Client.upload sx px req resp size1 size2 body bodyLen bs, v) := by
  obtain ⟨bs0, hb0⟩ := inRounds_any rs
  unfold upload Client.upload
  by_cases c : size1 = 0 ∨ size2 = 0
  · exact ⟨bs0, u, hb0, by rw [if_pos c, if_pos c]⟩
  · simp only [if_neg c]
    cases calcBlockSzx size1 with
    | ub => exact ⟨bs0, u, hb0, rfl⟩
    | err e => exact ⟨bs0, u, hb0, rfl⟩
    | ok szx =>
      dsimp only
      cases calcBlockSzx size2 with
      | ub => exact ⟨bs0, u, hb0, rfl⟩
      | err e => exact ⟨bs0, u, hb0, rfl⟩
      | ok _ => exact blockwise1_plain sx px req size2 body bodyLen rs size1 szx 0 resp u

theorem download_plain (sx px : Bool) (req resp : Msg) (size2 : Nat) (body : Bytes) (bodyLen : Nat) (haveResp : Bool) (rs : List Round) (u : World) :
    ∃ bs v, InRounds rs bs ∧
      download sx px req resp size2 body bodyLen haveResp rs u = (Client.download sx px req resp size2 body bodyLen haveResp bs, v) := by
  obtain ⟨bs0, hb0⟩ := inRounds_any rs
  unfold download Client.download
  by_cases c : size2 = 0
  · exact ⟨bs0, u, hb0, by rw [if_pos c, if_pos c]⟩
  · simp only [if_neg c]
    cases calcBlockSzx size2 with
    | ub => exact ⟨bs0, u, hb0, rfl⟩
    | err e => exact ⟨bs0, u, hb0, rfl⟩
    | ok szx =>
      dsimp only
      by_cases c1 : haveResp = false
      · simp only [if_pos c1]
        exact blockwise2_plain sx px req bodyLen rs size2 szx 0 resp body u
      · simp only [if_neg c1]
        cases take2 req.codeDetail size2 0 resp body bodyLen with
        | ub => exact ⟨bs0, u, hb0, rfl⟩
        | err e => exact ⟨bs0, u, hb0, rfl⟩
        | ok z =>
          cases z with
          | ret x body' => exact ⟨bs0, u, hb0, rfl⟩
          | next size2' szx' start' body' => exact blockwise2_plain sx px req bodyLen rs size2' szx' start' Msg.create body' u

/-- C135. Whatever the TLS library does, a blockwise transfer over DTLS shows and returns what a transfer without DTLS does that receives as datagrams the
records the library has delivered. So C34–C37, C73, C124 and C126 hold over DTLS too. -/
theorem C135_same_client (sx px : Bool) (req resp : Msg) (size1 size2 : Nat) (body : Bytes) (bodyLen : Nat) (haveResp : Bool) (rs1 rs2 : List Round)
    (u : World) : ∃ bs1 bs2, InRounds rs1 bs1 ∧ InRounds rs2 bs2 ∧
      (exchangeBlockwise sx px req resp size1 size2 body bodyLen haveResp rs1 rs2 u).1 =
        Client.exchangeBlockwise sx px req resp size1 size2 body bodyLen haveResp bs1 bs2 := by
  obtain ⟨bs1, hb1⟩ := inRounds_any rs1
  obtain ⟨bs2, hb2⟩ := inRounds_any rs2
  unfold exchangeBlockwise Client.exchangeBlockwise
  by_cases c1 : req.codeDetail = 1
  · simp only [if_pos c1]
    obtain ⟨bs, v, hb, h⟩ := download_plain sx px req resp size2 body bodyLen haveResp rs2 u
    exact ⟨bs1, bs, hb1, hb, by rw [h]⟩
  · simp only [if_neg c1]
    by_cases c2 : req.codeDetail = 3 ∨ req.codeDetail = 2
    · simp only [if_pos c2]
      obtain ⟨bs, v, hb, h⟩ := upload_plain sx px req resp size1 size2 body bodyLen rs1 u
      cases hc : Client.upload sx px req resp size1 size2 body bodyLen bs with
      | ub => exact ⟨bs, bs2, hb, hb2, by rw [h, hc]⟩
      | err e => exact ⟨bs, bs2, hb, hb2, by rw [h, hc]⟩
      | ok r =>
        rw [h, hc]
        dsimp only
        cases hret : r.ret with
        | none => exact ⟨bs, bs2, hb, hb2, by rw [hc]; dsimp only; rw [hret]⟩
        | some x =>
          cases x with
          | error e => exact ⟨bs, bs2, hb, hb2, by rw [hc]; dsimp only; rw [hret]⟩
          | ok n =>
            dsimp only
            by_cases c3 : n = 0
            · exact ⟨bs, bs2, hb, hb2, by rw [hc]; dsimp only; rw [hret]; dsimp only; rw [if_pos c3, if_pos c3]⟩
            · by_cases c4 : r.resp.payload = []
              · exact ⟨bs, bs2, hb, hb2, by rw [hc]; dsimp only; rw [hret]; dsimp only; rw [if_neg c3, if_neg c3, if_pos c4, if_pos c4]⟩
              · obtain ⟨ds, w, hd, h2⟩ := download_plain sx px req r.resp size2 r.body bodyLen true rs2 v
                refine ⟨bs, ds, hb, hd, ?_⟩
                rw [hc]
                dsimp only
                rw [hret]
                dsimp only
                rw [if_neg c3, if_neg c3, if_neg c4, if_neg c4, h2]
                cases Client.download sx px req r.resp size2 r.body bodyLen true ds <;> rfl
    · exact ⟨bs1, bs2, hb1, hb2, by simp only [if_neg c2]⟩

end FreeCoAP.Client.Dtls
