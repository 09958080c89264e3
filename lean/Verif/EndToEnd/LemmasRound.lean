import Verif.EndToEnd.LemmasDown
import Verif.Client.Props2

/-! # One round of a transfer, seen from both sides -/

namespace FreeCoAP.EndToEnd

open FreeCoAP.Msg
open FreeCoAP.Server (Env Event Addr arrived Asks Carries Built Formats header emptyAck reset cpath RespTo Tracks Srv Reach AppOK run Transfer
  CarriesBlock numOf sizeOf2 joined BlockSize)
open FreeCoAP.Client (Exchanged Rounds others values stamped Wants WantsAll Piece Pieces Content Matches NoBlocks)

/-- What the server sends is Empty or what is known of the responses. -/
def Sent (a : Addr) (K : Msg → Prop) (tr : List (List Server.Obs)) : Prop :=
  ∀ d, (a, d) ∈ Server.sends tr.flatten → Server.Empty d ∨ ∃ x, Built x ∧ K x ∧ Formats x d

theorem sent_of {a : Addr} {K : Msg → Prop} {tr : List (List Server.Obs)}
    (h : ∀ o ∈ tr, ∀ b, (a, b) ∈ Server.sends o → Server.Empty b ∨ ∃ x, Built x ∧ K x ∧ Formats x b) : Sent a K tr := by
  intro d hd
  have := Server.mem_sends.1 hd
  obtain ⟨o, ho, hm⟩ := List.mem_flatten.1 this
  exact h o ho d (Server.mem_sends.2 hm)

theorem Sent.append {a : Addr} {K : Msg → Prop} {tr tr' : List (List Server.Obs)} (h : Sent a K tr) (h' : Sent a K tr') :
    Sent a K (tr ++ tr') := by
  intro d hd
  have := Server.mem_sends.1 hd
  rw [List.flatten_append] at this
  rcases List.mem_append.1 this with hm | hm
  · exact h d (Server.mem_sends.2 hm)
  · exact h' d (Server.mem_sends.2 hm)

theorem Sent.mono {a : Addr} {K K' : Msg → Prop} {tr : List (List Server.Obs)} (h : Sent a K tr) (hk : ∀ x, K x → K' x) : Sent a K' tr := by
  intro d hd
  rcases h d hd with h | ⟨x, h1, h2, h3⟩
  · exact Or.inl h
  · exact Or.inr ⟨x, h1, hk x h2, h3⟩

theorem empty_token {sx : Bool} {d : Bytes} {m : Msg} (h : Server.Empty d) (hc : Carries sx d m) : m.token = [] := by
  obtain ⟨hd, h1, h2⟩ := carries_token hc
  rw [← h2]
  rcases h with ⟨i, -, rfl⟩ | ⟨i, -, rfl⟩ | rfl <;> · cases h1; rfl

theorem empty_asks {sx : Bool} {d : Bytes} {m : Msg} {id : Nat} (h : d = reset id ∨ d = emptyAck id) (hc : Carries sx d m) : ¬ Asks m := by
  obtain ⟨hd, h1, h2, -⟩ := hc.header
  rintro ⟨h3, -⟩
  rw [← h2] at h3
  rcases h with rfl | rfl
  · cases h1; rcases h3 with h3 | h3 <;> cases h3
  · cases h1; rcases h3 with h3 | h3 <;> cases h3

theorem arrived_carries {sx : Bool} {a : Addr} {x : Env × Event} {m : Msg} (h : arrived sx a x = some m) :
    ∃ d, x.2 = .datagram a d ∧ Carries sx d m := by
  unfold arrived at h
  split at h
  · rename_i b d hx
    split at h
    · rename_i hc
      split at h
      · cases h
        rename_i hp
        exact ⟨d, by rw [hx, hc.1], hp⟩
      · cases h
    · cases h
  · cases h

theorem stamped_built {x : Client.XEnv} {m : Msg} (h : Built m) : Built (stamped x m) := by
  refine ⟨h.ver, h.type, h.cls, h.detail, ?_, ?_, h.sorted⟩
  · show 256 * x.id1.toNat + x.id0.toNat < 65536
    have h1 := x.id1.toNat_lt
    have h2 := x.id0.toNat_lt
    omega
  · exact (by decide : (4 : Nat) ≤ 8)

/-- The response of a round is the server's response to the message of the round, once the
messages of the round can be read back. -/
theorem round_resp {sx : Bool} {a : Addr} {K : Msg → Prop} {P : Msg → Msg → Prop} {rounds : List (Client.BEnv × List Client.Obs)}
    {evs0 evs : List (Env × Event)} {tr0 tr : List (List Server.Obs)} (hn : Network sx a rounds evs0 evs tr0 tr)
    (hK : ∀ x, K x → ∀ r ∈ rounds, x.token ≠ token r.1)
    (hs : Sent a (RespTo K (fun m => ∃ x ∈ evs, arrived sx a x = some m) P) (tr0 ++ tr))
    {b : Client.BEnv} {o : List Client.Obs} (hr : (b, o) ∈ rounds) {m r : Msg} (hx : Exchanged sx b.x m r o) (hb : Built m)
    (ho : Ordinary sx m) : ∃ x d, Built x ∧ Formats x d ∧ Carries sx d r ∧ P (stamped b.x m) x := by
  obtain ⟨⟨b0, hf0, -, hall⟩, hmat, i, hi, d, hd, hc⟩ := hx
  have htok : r.token = token b := hmat.1
  rcases hs d (hn.responses (b, o) hr i hi d hd) with he | ⟨x, hxb, hxk, hxf⟩
  · have := empty_token he hc
    rw [htok] at this
    cases this
  have hxt : x.token = r.token := (carries_fields hxb hxf hc).1.symm
  rcases hxk with hxk | ⟨m', ⟨ev, hev, harr⟩, hask, htk, hP⟩
  · exact absurd (hxt.trans htok) (hK x hxk (b, o) hr)
  refine ⟨x, d, hxb, hxf, hc, ?_⟩
  obtain ⟨d', he, hc'⟩ := arrived_carries harr
  obtain ⟨env, ev⟩ := ev
  simp only at he
  subst he
  have hin := hn.requests env d' hev m' hc' hask (b, o) hr (by rw [← htk, hxt, htok])
  rcases hall d' hin with rfl | ⟨id, -, h⟩
  · have : m' = stamped b.x m := carries_eq (stamped_built hb) ho hf0 hc'
    rw [← this]
    exact hP
  · exact absurd hask (empty_asks h hc')

/-! ## The options of the messages of the client -/

theorem others_ordinary {sx : Bool} {req m : Msg} (h : others m = req.ops) (ho : Ordinary sx req)
    (h1 : ∀ v ∈ values BLOCK1 m, v.length < 141) (h2 : ∀ v ∈ values BLOCK2 m, v.length < 141) : Ordinary sx m := by
  intro o hm
  by_cases e1 : o.num = BLOCK1
  · have := h1 o.val (List.mem_map.2 ⟨o, List.mem_filter.2 ⟨hm, by simpa using e1⟩, rfl⟩)
    rw [e1]
    exact ⟨by decide, by omega, fun _ => ⟨by decide, this⟩⟩
  by_cases e2 : o.num = BLOCK2
  · have := h2 o.val (List.mem_map.2 ⟨o, List.mem_filter.2 ⟨hm, by simpa using e2⟩, rfl⟩)
    rw [e2]
    exact ⟨by decide, by omega, fun _ => ⟨by decide, this⟩⟩
  · apply ho
    rw [← h]
    exact List.mem_filter.2 ⟨hm, by simp [e1, e2]⟩

theorem segments_filter (f : Op → Bool) (ops : List Op) (h : ∀ o ∈ ops, o.num = 11 → f o = true) :
    segments (ops.filter f) = segments ops := by
  unfold segments
  congr 1
  rw [List.filter_filter]
  apply List.filter_congr
  intro o ho
  by_cases h11 : o.num = 11
  · simp [h11, h o ho h11]
  · simp [h11]

theorem pathStr_others (m : Msg) : pathStr (others m) = pathStr m.ops := by
  have hf : ∀ o ∈ m.ops, o.num = 11 → decide (o.num ≠ BLOCK1 ∧ o.num ≠ BLOCK2) = true := by
    intro o _ h
    rw [h]
    decide
  unfold pathStr others
  rw [segments_filter _ _ hf]
  have : (∃ o ∈ m.ops.filter (fun o => o.num ≠ BLOCK1 ∧ o.num ≠ BLOCK2), o.num = 11) ↔ ∃ o ∈ m.ops, o.num = 11 := by
    constructor
    · rintro ⟨o, ho, h⟩
      exact ⟨o, (List.mem_filter.1 ho).1, h⟩
    · rintro ⟨o, ho, h⟩
      exact ⟨o, List.mem_filter.2 ⟨ho, hf o ho h⟩, h⟩
  by_cases h : ∃ o ∈ m.ops, o.num = 11
  · rw [if_pos h, if_pos (this.2 h)]
  · rw [if_neg h, if_neg (fun h' => h (this.1 h'))]

theorem cpath_others {req m : Msg} (n : Nat) (h : others m = req.ops) : cpath n m.ops = cpath n req.ops := by
  unfold cpath
  rw [← h, pathStr_others]

theorem wants_ordinary {sx : Bool} {req m : Msg} {off : Nat} (h : Wants req off m) (ho : Ordinary sx req) : Ordinary sx m := by
  obtain ⟨val, num, size, h2, h3, -⟩ := h.block2
  refine others_ordinary h.options ho ?_ ?_
  · rw [h.block1]
    intro v hv
    cases hv
  · rw [h2]
    intro v hv
    rw [List.mem_singleton.1 hv]
    omega

/-! ## Downloads -/

/-- The payload of a response to the request for the block at offset `off`. -/
theorem piece_block {req m r : Msg} {off : Nat} {last : Bool} {body : Bytes} {o2 : Option Block} {size : Nat} (hw : Wants req off m)
    (hp : Piece 1 off last r) (h1 : parseBlockOp BLOCK2 m.ops = .ok o2) (h2 : CarriesBlock body 5 (numOf o2) (sizeOf2 o2 size) r)
    (h3 : parseBlockOp BLOCK2 r.ops = .ok (some ⟨numOf o2, (numOf o2 + 1) * sizeOf2 o2 size ≤ body.length, sizeOf2 o2 size⟩)) :
    off ≤ body.length ∧ if last = true then r.payload = body.drop off else r.payload ++ body.drop (off + r.payload.length) = body.drop off := by
  obtain ⟨val, k, Z, g1, g2, g3, g4⟩ := hw.block2
  have e := parseBlockOp_of (Or.inr rfl) g2 g3 (filter_values g1)
  rw [e] at h1
  cases h1
  obtain ⟨num, sz, blk, p1, p2, p3, p4, p5, p6, -⟩ := hp.block2
  rw [h3] at p1
  cases p1
  simp only [numOf, sizeOf2] at *
  subst p2
  have hs : k * min Z size = off := by
    rcases Nat.eq_zero_or_pos k with rfl | hk
    · simpa using g4
    · have : sz = Z := Nat.eq_of_mul_eq_mul_left hk (p6.trans g4.symm)
      have : min Z size = Z := by omega
      rw [this, g4]
  have hin := h2.inside
  have hpl := h2.payload
  rw [hs] at hin hpl
  refine ⟨hin, ?_⟩
  cases last with
  | true =>
    have p3 : ¬ (k + 1) * min Z size ≤ body.length := of_decide_eq_false p3
    simp only [if_true]
    rw [hpl]
    apply List.take_of_length_le
    rw [List.length_drop]
    rw [Nat.succ_mul, hs] at p3
    omega
  | false =>
    have p3 : (k + 1) * min Z size ≤ body.length := of_decide_eq_true p3
    rw [Nat.succ_mul, hs] at p3
    have hl : r.payload.length = min Z size := by
      rw [hpl, List.length_take, List.length_drop]
      omega
    rw [if_neg (by decide), hl, hpl, ← List.drop_drop, List.take_append_drop]

theorem down_rounds {sx : Bool} {req : Msg} {body : Bytes} {rounds : List (Client.BEnv × List Client.Obs)}
    (hround : ∀ b o, (b, o) ∈ rounds → ∀ m r off, Exchanged sx b.x m r o → Wants req off m → r.codeClass = 2 →
      ∃ o2 size, parseBlockOp BLOCK2 m.ops = .ok o2 ∧ CarriesBlock body 5 (numOf o2) (sizeOf2 o2 size) r ∧
        parseBlockOp BLOCK2 r.ops = .ok (some ⟨numOf o2, (numOf o2 + 1) * sizeOf2 o2 size ≤ body.length, sizeOf2 o2 size⟩))
    {bs : List Client.BEnv} {ms rs : List Msg} {os : List (List Client.Obs)} (h : Rounds sx bs ms rs os) :
    ∀ {off : Nat}, (∀ x ∈ bs.zip os, x ∈ rounds) → WantsAll req off ms rs → Pieces 1 off rs → joined rs = body.drop off := by
  induction h with
  | done => intro off _ _ hp; cases hp
  | @round b bs m r ms rs o os hx hs ih =>
    intro off hsub hw hp
    have hin : (b, o) ∈ rounds := hsub _ (by simp)
    have hsub' : ∀ x ∈ bs.zip os, x ∈ rounds := fun x hx => hsub x (by rw [List.zip_cons_cons]; exact List.mem_cons_of_mem _ hx)
    cases hw with
    | next hw hws =>
    cases hp with
    | last hp =>
      obtain ⟨o2, size, h1, h2, h3⟩ := hround b o hin m r off hx hw hp.content.1
      have := (piece_block hw hp h1 h2 h3).2
      rw [if_pos rfl] at this
      simp [joined, this]
    | next hp hps =>
      obtain ⟨o2, size, h1, h2, h3⟩ := hround b o hin m r off hx hw hp.content.1
      have := (piece_block hw hp h1 h2 h3).2
      rw [if_neg (by decide)] at this
      have ih := ih hsub' hws hps
      rw [← this, ← ih]
      rfl

end FreeCoAP.EndToEnd
