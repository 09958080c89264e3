import Verif.EndToEnd.LemmasUp

/-! # The client side of an upload: what is sent, whatever the outcome -/

namespace FreeCoAP.EndToEnd

open FreeCoAP.Msg
open FreeCoAP.Server (Built Carries Formats emptyAck reset BlockSize)
open FreeCoAP.Client (Exchanged others values stamped NoBlocks Confirmed)

/-- The message carries the part of `src` of `size` bytes (or less, if it is the last one) at `off`. -/
structure Slice (req : Msg) (src : Bytes) (off size : Nat) (m : Msg) : Prop where
  built : Built m
  detail : m.codeDetail = req.codeDetail
  options : others m = req.ops
  pos : 0 < size
  block1 : ∃ val num, values BLOCK1 m = [val] ∧ val.length = 3 ∧ blockSpec val = some ⟨num, decide (off + size < src.length), size⟩ ∧ num * size = off
  block2 : ∀ v ∈ values BLOCK2 m, v.length = 3
  payload : m.payload = (src.drop off).take size

/-- A part and the round it is sent in. -/
structure Slot where
  round : Client.BEnv × List Client.Obs
  m : Msg
  off : Nat
  size : Nat

/-- What is sent in the round. -/
def Slot.Sends (p : Slot) : Prop :=
  ∀ d ∈ Client.sends p.round.2, Formats (stamped p.round.1.x p.m) d ∨ ∃ id, d = reset id ∨ d = emptyAck id

structure Plan (sx : Bool) (req : Msg) (src : Bytes) (rounds : List (Client.BEnv × List Client.Obs)) (start size1 : Nat) (plan : List Slot) : Prop where
  all : ∀ x ∈ rounds, Client.sends x.2 = [] ∨ ∃ p ∈ plan, p.round = x
  parts : ∀ p ∈ plan, Slice req src p.off p.size p.m ∧ start ≤ p.off ∧ p.size ≤ size1 ∧ p.Sends
  order : plan.Pairwise (fun p q => p.off + p.size ≤ q.off ∧ q.size ≤ p.size)
  first : (∀ p ∈ plan, p.off = start) ∨ ∃ b o m r blk, (b, o) ∈ rounds ∧ Exchanged sx b.x m r o ∧ Slice req src start size1 m ∧
    start + size1 < src.length ∧ r.codeClass = 2 ∧ parseBlockOp BLOCK1 r.ops = .ok (some blk) ∧ ∀ p ∈ plan, p.off = start ∨ p.size ≤ blk.size

theorem made_slice {req m : Msg} {size1 size2 szx start k n bodyLen : Nat} {body : Bytes} (hz : calcBlockSzx size1 = .ok szx) (hk : start = k * size1)
    (hs : start < bodyLen ∨ start = 0) (hl : bodyLen ≤ body.length) (h24 : bodyLen ≤ 2 ^ 24)
    (h : Client.Made1 req size1 size2 start bodyLen body m n) : Slice req (body.take bodyLen) start size1 m := by
  have hbs : BlockSize size1 := Client.BlockSize.of_szx hz
  have hpos := Server.BlockSize.pos hbs
  have hlen : (body.take bodyLen).length = bodyLen := by rw [List.length_take]; omega
  have hk20 : k < 2 ^ 20 := by
    obtain ⟨j, -, rfl⟩ := hbs
    have h16 : k * 16 ≤ k * 2 ^ (j + 4) := Nat.mul_le_mul_left _ (by rw [Nat.pow_add]; have := Nat.two_pow_pos j; omega)
    omega
  have hkn := Client.div_of_szx hz hk
  obtain ⟨val, h1, h2, h3⟩ := h.block1
  have h3 := h3 szx hz (by rw [hkn]; exact hk20)
  refine ⟨h.built, h.code.2, h.options, hpos, ⟨val, k, h1, h2, ?_, hk.symm⟩, ?_, ?_⟩
  · rw [h3, hkn, hlen]
    have : decide (¬ start + size1 ≥ bodyLen) = decide (start + size1 < bodyLen) := by
      apply decide_eq_decide.2
      omega
    rw [this]
  · have := h.block2
    split at this
    · obtain ⟨v, g1, g2, -⟩ := this
      rw [g1]
      intro w hw
      rw [List.mem_singleton.1 hw]
      exact g2
    · rw [this]
      intro w hw
      cases hw
  · rw [h.payload, h.len, List.drop_take, List.take_take]
    congr 1
    split <;> omega

theorem sends_of {sx px : Bool} {x : Client.XEnv} {req : Msg} {o : List Client.Obs} {r : Option (Except Err Msg)} (hr : Built req)
    (h : Client.exchange sx px x req = .ok (o, r)) :
    ∀ d ∈ Client.sends o, Formats (stamped x req) d ∨ ∃ id, d = reset id ∨ d = emptyAck id := by
  intro d hd
  rcases Client.C35_transmitted hr h with ⟨rfl, -⟩ | ⟨b, h1, -, h3⟩
  · cases hd
  · rcases h3 d hd with rfl | ⟨id, -, h⟩
    · exact Or.inl h1
    · exact Or.inr ⟨id, h⟩

/-- A single part. -/
theorem plan_one {sx : Bool} {req m : Msg} {src : Bytes} {b : Client.BEnv} {bs : List Client.BEnv} {o : List Client.Obs} {start size1 : Nat}
    (hm : Slice req src start size1 m)
    (hs : ∀ d ∈ Client.sends o, Formats (stamped b.x m) d ∨ ∃ id, d = reset id ∨ d = emptyAck id) :
    Plan sx req src ((b :: bs).zip [o]) start size1 [⟨(b, o), m, start, size1⟩] := by
  have hz : (b :: bs).zip [o] = [(b, o)] := by simp
  rw [hz]
  refine ⟨?_, ?_, List.pairwise_singleton _ _, Or.inl ?_⟩
  · intro x hx
    rw [List.mem_singleton.1 hx]
    exact Or.inr ⟨_, List.mem_singleton.2 rfl, rfl⟩
  · intro p hp
    rw [List.mem_singleton.1 hp]
    exact ⟨hm, Nat.le_refl _, Nat.le_refl _, hs⟩
  · intro p hp
    rw [List.mem_singleton.1 hp]

/-- The last part was confirmed. -/
def Finished (sx : Bool) (req : Msg) (src : Bytes) (rounds : List (Client.BEnv × List Client.Obs)) : Prop :=
  ∃ b o m r off size blk, (b, o) ∈ rounds ∧ Exchanged sx b.x m r o ∧ Slice req src off size m ∧ src.length ≤ off + size ∧ r.codeClass = 2 ∧
    parseBlockOp BLOCK1 r.ops = .ok (some blk)

theorem blockwise1_plan {sx px : Bool} {req : Msg} {size2 bodyLen : Nat} {body : Bytes} (hr : Built req) (hb : NoBlocks req)
    (hl : bodyLen ≤ body.length) (h24 : bodyLen ≤ 2 ^ 24) :
    ∀ (bs : List Client.BEnv) (size1 szx start k : Nat) (resp : Msg) (res : Client.BRes), calcBlockSzx size1 = .ok szx → start = k * size1 →
    (start < bodyLen ∨ start = 0) → Client.blockwise1 sx px req size2 body bodyLen size1 szx start resp bs = .ok res →
    (∃ plan, Plan sx req (body.take bodyLen) (bs.zip res.obs) start size1 plan) ∧
    ∀ n, res.ret = some (.ok n) → Confirmed res.resp ∨ n ≠ 0 → Finished sx req (body.take bodyLen) (bs.zip res.obs)
  | [], size1, szx, start, k, resp, res, hz, hk, hs, h => by
    cases h
    exact ⟨⟨[], ⟨fun x hx => (by cases hx), fun x hx => (by cases hx), List.Pairwise.nil, Or.inl (fun x hx => (by cases hx))⟩⟩, fun n h => by cases h⟩
  | b :: bs, size1, szx, start, k, resp, res, hz, hk, hs, h => by
    have hlen : (body.take bodyLen).length = bodyLen := by rw [List.length_take]; omega
    unfold Client.blockwise1 at h
    split at h
    · cases h
    · cases h
    · cases h
      refine ⟨⟨[], ⟨fun x hx => Or.inl ?_, fun x hx => (by cases hx), List.Pairwise.nil, Or.inl (fun x hx => (by cases hx))⟩⟩, fun n h => by cases h⟩
      have : (b :: bs).zip [([] : List Client.Obs)] = [(b, [])] := by simp
      rw [this] at hx
      rw [List.mem_singleton.1 hx]
      rfl
    rename_i m pl hm
    have hM := Client.message1_ok hr hb hz hm
    have hS := made_slice hz hk hs hl h24 hM
    split at h
    · cases h
    · cases h
    · rename_i o hx
      cases h
      exact ⟨⟨_, plan_one hS (sends_of hM.built hx)⟩, fun n h => by cases h⟩
    · rename_i o e hx
      cases h
      exact ⟨⟨_, plan_one hS (sends_of hM.built hx)⟩, fun n h => by cases h⟩
    rename_i o r hx
    have hX := Client.exchanged hM.built hx
    have hso := sends_of hM.built hx
    by_cases h1 : r.codeClass ≠ 2
    · rw [if_pos h1] at h; cases h
      refine ⟨⟨_, plan_one hS hso⟩, fun n hn hc => ?_⟩
      cases hn
      rcases hc with hc | hc
      · exact absurd hc.1 h1
      · exact absurd rfl hc
    rw [if_neg h1] at h
    have h1 : r.codeClass = 2 := Classical.byContradiction h1
    by_cases h2 : r.codeDetail ≠ 31 ∧ r.codeDetail ≠ 1 ∧ r.codeDetail ≠ 4
    · rw [if_pos h2] at h; cases h
      refine ⟨⟨_, plan_one hS hso⟩, fun n hn hc => ?_⟩
      cases hn
      rcases hc with ⟨-, hc⟩ | hc
      · simp only at hc
        omega
      · exact absurd rfl hc
    rw [if_neg h2] at h
    split at h
    · cases h
    · cases h; exact ⟨⟨_, plan_one hS hso⟩, fun n h => by cases h⟩
    · cases h; exact ⟨⟨_, plan_one hS hso⟩, fun n h => by cases h⟩
    rename_i blk hblk
    have hbs : BlockSize blk.size := Server.parseBlockOp_size hblk
    have hs1 : BlockSize size1 := Client.BlockSize.of_szx hz
    simp only at h
    obtain ⟨size', hsz'⟩ : ∃ s', s' = if blk.size < size1 then blk.size else size1 := ⟨_, rfl⟩
    rw [← hsz'] at h
    by_cases hst : blk.num * size' ≠ start
    · rw [if_pos hst] at h; cases h; exact ⟨⟨_, plan_one hS hso⟩, fun n h => by cases h⟩
    rw [if_neg hst] at h
    have hst : blk.num * size' = start := Classical.byContradiction hst
    have hs' : BlockSize size' := by rw [hsz']; split <;> assumption
    have hle : size' ≤ size1 := by rw [hsz']; split <;> omega
    have hle2 : size' ≤ blk.size := by rw [hsz']; split <;> omega
    obtain ⟨q, hq⟩ := Client.BlockSize.dvd hs' hs1 hle
    obtain ⟨szx', hszx'⟩ := Server.BlockSize.szx hs'
    rw [hszx'] at h
    simp only at h
    have hpl := hM.len
    by_cases hls : start + size1 ≥ bodyLen
    · rw [if_pos hls] at hpl
      rw [if_pos (by omega)] at h
      cases h
      refine ⟨⟨_, plan_one hS hso⟩, fun n _ _ => ⟨b, o, m, r, start, size1, blk, by simp, hX, hS, by omega, h1, hblk⟩⟩
    · rw [if_neg hls] at hpl
      rw [if_neg (by omega)] at h
      unfold Client.BRes.cons at h
      split at h
      · rename_i res' h'
        cases h
        obtain ⟨⟨plan, hp⟩, hfin⟩ := blockwise1_plan hr hb hl h24 bs size' szx' (start + pl) (blk.num + q) create res' hszx'
          (by rw [Nat.add_mul, hst, hpl, hq, Nat.mul_comm q]) (Or.inl (by omega)) h'
        have hz : (b :: bs).zip (o :: res'.obs) = (b, o) :: bs.zip res'.obs := List.zip_cons_cons
        rw [hz]
        subst hpl
        refine ⟨⟨⟨(b, o), m, start, pl⟩ :: plan, ?_, ?_, ?_, ?_⟩, ?_⟩
        · intro x hx
          rcases List.mem_cons.1 hx with rfl | hx
          · exact Or.inr ⟨_, List.mem_cons_self .., rfl⟩
          · rcases hp.all x hx with h | ⟨p, h1, h2⟩
            · exact Or.inl h
            · exact Or.inr ⟨p, List.mem_cons_of_mem _ h1, h2⟩
        · intro p hx
          rcases List.mem_cons.1 hx with rfl | hx
          · exact ⟨hS, Nat.le_refl _, Nat.le_refl _, hso⟩
          · obtain ⟨g1, g2, g3, g4⟩ := hp.parts p hx
            exact ⟨g1, by omega, by omega, g4⟩
        · refine List.pairwise_cons.2 ⟨fun p hx => ?_, hp.order⟩
          obtain ⟨g1, g2, g3, g4⟩ := hp.parts p hx
          exact ⟨g2, by simp only; omega⟩
        · refine Or.inr ⟨b, o, m, r, blk, List.mem_cons_self .., hX, hS, by omega, h1, hblk, fun p hx => ?_⟩
          rcases List.mem_cons.1 hx with rfl | hx
          · exact Or.inl rfl
          · obtain ⟨g1, g2, g3, g4⟩ := hp.parts p hx
            exact Or.inr (by omega)
        · intro n hn hc
          obtain ⟨b', o', m', r', off, size, blk', g1, g2⟩ := hfin n hn hc
          exact ⟨b', o', m', r', off, size, blk', List.mem_cons_of_mem _ g1, g2⟩
      · cases h
      · cases h

theorem upload_plan {sx px : Bool} {req resp : Msg} {size1 size2 bodyLen : Nat} {body : Bytes} {bs : List Client.BEnv} {res : Client.BRes}
    (hr : Built req) (hb : NoBlocks req) (hl : bodyLen ≤ body.length) (h24 : bodyLen ≤ 2 ^ 24)
    (h : Client.upload sx px req resp size1 size2 body bodyLen bs = .ok res) :
    (∃ plan, Plan sx req (body.take bodyLen) (bs.zip res.obs) 0 size1 plan) ∧
    ∀ n, res.ret = some (.ok n) → Confirmed res.resp ∨ n ≠ 0 → Finished sx req (body.take bodyLen) (bs.zip res.obs) := by
  have hnone : ∀ e : Err, res = ⟨[], some (.error e), resp, body⟩ →
      (∃ plan, Plan sx req (body.take bodyLen) (bs.zip res.obs) 0 size1 plan) ∧
      ∀ n, res.ret = some (.ok n) → Confirmed res.resp ∨ n ≠ 0 → Finished sx req (body.take bodyLen) (bs.zip res.obs) := by
    rintro e rfl
    have : bs.zip ([] : List (List Client.Obs)) = [] := by simp
    simp only [this]
    exact ⟨⟨[], ⟨fun x hx => (by cases hx), fun x hx => (by cases hx), List.Pairwise.nil, Or.inl (fun x hx => (by cases hx))⟩⟩, fun n h => by cases h⟩
  unfold Client.upload at h
  split at h
  · cases h; exact hnone _ rfl
  split at h
  · cases h
  · cases h; exact hnone _ rfl
  rename_i szx hz
  split at h
  · cases h
  · cases h; exact hnone _ rfl
  exact blockwise1_plan hr hb hl h24 bs size1 szx 0 0 resp res hz (by simp) (Or.inr rfl) h

theorem pairwise_cases {α : Type} {R : α → α → Prop} : ∀ {l : List α}, l.Pairwise R → ∀ p ∈ l, ∀ q ∈ l, p = q ∨ R p q ∨ R q p
  | [], _, p, hp, _, _ => by cases hp
  | x :: xs, h, p, hp, q, hq => by
    obtain ⟨h1, h2⟩ := List.pairwise_cons.1 h
    rcases List.mem_cons.1 hp with rfl | hp' <;> rcases List.mem_cons.1 hq with rfl | hq'
    · exact Or.inl rfl
    · exact Or.inr (Or.inl (h1 q hq'))
    · exact Or.inr (Or.inr (h1 p hp'))
    · exact pairwise_cases h2 p hp' q hq'

end FreeCoAP.EndToEnd
