import Verif.EndToEnd.LemmasFollow

/-! # The server side of a download -/

namespace FreeCoAP.EndToEnd

open FreeCoAP.Msg
open FreeCoAP.Server

/-- What is known of a response to a GET request for the resource. -/
def DownResp (sx : Bool) (uri body : Bytes) (m x : Msg) : Prop :=
  m.codeDetail = 1 → cpath 256 m.ops = uri → x.codeClass = 2 →
    ∃ o2 size, parseBlockOp BLOCK2 m.ops = .ok o2 ∧ CarriesBlock body 5 (numOf o2) (sizeOf2 o2 size) x ∧
      parseBlockOp BLOCK2 x.ops = .ok (some ⟨numOf o2, (numOf o2 + 1) * sizeOf2 o2 size ≤ body.length, sizeOf2 o2 size⟩) ∧ Ordinary sx x

/-- What is known of the transfer. -/
def DownBlk (uri body : Bytes) (b : Blk) : Prop :=
  b.type = .get → b.blockUri = uri → ∃ next size, ServingT 1 uri body 5 next size b

theorem method_get {t : TType} (h : t.method = 1) (hr : t = .get ∨ t = .put2 ∨ t = .post2) : t = .get := by
  rcases hr with rfl | rfl | rfl
  · rfl
  · cases h
  · cases h

theorem next2_other {opMem payMem : Bool} {b : Blk} {L : Large} {m resp : Msg} {num2 : Nat} {uri : Bytes} {x : BRes}
    (h : Next2 opMem payMem b L m resp num2 (cpath 256 m.ops) x) (ht : b.type = .get ∨ b.type = .put2 ∨ b.type = .post2)
    (hn : b.type = .get → b.blockUri ≠ uri) :
    (x.blk.type = .get → x.blk.blockUri ≠ uri) ∧
    (m.codeDetail = 1 → cpath 256 m.ops = uri → x.err = none → x.resp.codeClass ≠ 2) := by
  have hno : Fits2 b m num2 (cpath 256 m.ops) → m.codeDetail = 1 → cpath 256 m.ops = uri → False := by
    intro hf h1 h2
    exact hn (method_get (hf.1.symm.trans h1) ht) (hf.2.1.symm.trans h2)
  cases h with
  | bad _ => exact ⟨fun h => (by cases h), fun _ _ _ => by show (4 : Nat) ≠ 2; decide⟩
  | fail _ e resp' hb hf => exact ⟨fun h => (by cases h), fun _ _ h => by cases h⟩
  | more h => exact ⟨hn, fun h1 h2 _ => (hno h h1 h2).elim⟩
  | last h => exact ⟨fun h' => (by cases h'), fun h1 h2 _ => (hno h h1 h2).elim⟩

theorem nextStep_other {env : Env} {opMem : Bool} {again : Blk → Large → Msg → Out BRes} {b : Blk} {L : Large} {m resp : Msg} {x : BRes}
    {uri : Bytes} (h : NextStep env opMem again b L m resp x) (hr : b.type ≠ .regular) (hn : b.type = .get → b.blockUri ≠ uri)
    (hag : ∀ b L resp x, (b.type = .put2 ∨ b.type = .post2) → again b L resp = .ok x → x.blk.type ≠ .get) :
    (x.blk.type = .get → x.blk.blockUri ≠ uri) ∧
    (m.codeDetail = 1 → cpath 256 m.ops = uri → x.err = none → x.resp.codeClass ≠ 2) := by
  cases h with
  | badOp => exact ⟨fun h => (by cases h), fun _ _ _ => by show (4 : Nat) ≠ 2; decide⟩
  | regular o1 o2 h1 h2 ht => exact absurd ht hr
  | two o1 o2 h1 h2 ht x hx => exact next2_other hx ht hn
  | one o1 o2 h1 h2 ht x hx =>
    have hm : (shrink b o1 o2).type.method ≠ 1 := by
      show b.type.method ≠ 1
      rcases ht with ht | ht <;> rw [ht] <;> decide
    cases hx with
    | bad _ => exact ⟨fun h => (by cases h), fun _ _ _ => by show (4 : Nat) ≠ 2; decide⟩
    | order => exact ⟨fun h => (by cases h), fun _ _ _ => by show (4 : Nat) ≠ 2; decide⟩
    | large => exact ⟨fun h => (by cases h), fun _ _ _ => by show (4 : Nat) ≠ 2; decide⟩
    | fail => exact ⟨fun h => (by cases h), fun _ _ h => by cases h⟩
    | more h1 =>
      refine ⟨fun h => ?_, fun h' _ _ => absurd (h1.symm.trans h') hm⟩
      change b.type = .get at h
      rw [h] at ht
      rcases ht with ht | ht <;> cases ht
    | whole h1 h2 h3 h4 h5 hmo szx hz val hv p bytes bytes' hb hw id hrx rr hrr hlen x hx =>
      refine ⟨fun h => ?_, fun h' _ _ => absurd (h1.symm.trans h') hm⟩
      exfalso
      change x.blk.type = .get at h
      rcases hx with ⟨e, -, rfl⟩ | ⟨-, -, rfl⟩ | ⟨-, -, -, hx⟩ | ⟨-, -, -, ⟨-, rfl⟩ | ⟨-, rfl⟩⟩
      · cases h
      · cases h
      · refine hag _ _ _ _ ?_ hx h
        simp only
        split
        · exact Or.inl rfl
        · exact Or.inr rfl
      · cases h
      · cases h

theorem nextBlock_other {env : Env} {b : Blk} {L : Large} {m resp : Msg} {x : BRes} {uri : Bytes}
    (h : nextBlock env b L m resp = .ok x) (hr : b.type ≠ .regular) (hn : b.type = .get → b.blockUri ≠ uri) :
    (x.blk.type = .get → x.blk.blockUri ≠ uri) ∧
    (m.codeDetail = 1 → cpath 256 m.ops = uri → x.err = none → x.resp.codeClass ≠ 2) := by
  unfold nextBlock at h
  refine nextStep_other (nextBlockStep_cases h) hr hn ?_
  intro b L resp x hb h hx
  have hne : b.type ≠ .get := by rintro hg; rw [hg] at hb; rcases hb with hb | hb <;> cases hb
  have hnr : b.type ≠ .regular := by rintro hg; rw [hg] at hb; rcases hb with hb | hb <;> cases hb
  have := (nextStep_other (uri := x.blk.blockUri) (nextBlockStep_cases h) hnr (fun h => absurd h hne) (fun _ _ _ _ _ h => by cases h)).1 hx
  exact this rfl

theorem nextBlock_serve {sx : Bool} {env : Env} {b : Blk} {L : Large} {m resp : Msg} {x : BRes} {uri body : Bytes} {next size : Nat}
    (h : nextBlock env b L m resp = .ok x) (hs : ServingT 1 uri body 5 next size b) (hr : NoBlock2 resp) (hso : Sorted resp.ops)
    (hor : Ordinary sx resp) (he : x.err = none) : DownResp sx uri body m x.resp ∧ DownBlk uri body x.blk := by
  obtain ⟨-, hh⟩ := serve_step hs hr hso (nextBlockStep_cases h)
  rcases hh with ⟨-, e2, e3, -⟩ | ⟨e1, -⟩ | ⟨o2, e1, -, e3, e4, ⟨val, pl, d, e5, e6, -⟩, e7⟩
  · refine ⟨fun _ _ h => ?_, fun h => ?_⟩
    · rw [e3] at h; cases h
    · rw [e2] at h; cases h
  · exact absurd he e1
  · refine ⟨fun _ _ _ => ⟨o2, size, e1, e4, ?_, ?_⟩, fun _ _ => ?_⟩
    · obtain ⟨val', h1, h2⟩ := e4.option
      have e : x.resp.ops.filter (fun o => o.num = BLOCK2) = [⟨BLOCK2, val⟩] := by
        rw [e5]; exact block2_filter hr hso val
      rw [e] at h1
      cases h1
      exact parseBlockOp_of (Or.inr rfl) e6 h2 e
    · rw [e5]
      intro o ho
      change o ∈ (addOp resp BLOCK2 val).ops at ho
      simp only [addOp, opListAdd_eq] at ho
      rcases List.mem_cons.1 ((ins_perm _ _).mem_iff.1 ho) with rfl | ho
      · refine ⟨by show (23 : Nat) < 65536; decide, by simp only; omega, fun _ => ⟨by show (23 : Nat) < 141; decide, by simp only; omega⟩⟩
      · exact hor o ho
    · rcases e7 with ⟨-, e7⟩ | ⟨-, e7⟩
      · exact ⟨_, _, e7⟩
      · rename_i h _
        rw [e7] at h
        cases h

theorem create_ordinary (sx : Bool) : Ordinary sx create := fun _ h => by cases h

theorem create_noBlock2 : NoBlock2 create := fun _ h => by cases h

theorem down_gen {sx : Bool} {env : Env} {a : Addr} {uri body : Bytes} (happ : AppOK env) (hoff : Offers sx a uri body env)
    {t : Trans} {L : Large} {m : Msg} {r : BRes} {o2 : List Obs} (hta : t.addr = a) (hB : DownBlk uri body t.blk)
    (hg : generate env t L m = .ok (r, o2)) (he : r.err = none) : DownResp sx uri body m r.resp ∧ DownBlk uri body r.blk := by
  by_cases hk : AllKnown m
  case neg =>
    obtain ⟨-, -, e3, -, ⟨-, -, e4⟩ | ⟨-, e4⟩⟩ := generate_bad hk hg
    · refine ⟨fun _ _ h => ?_, by rw [e3]; exact hB⟩
      rw [e4] at h; cases h
    · rw [he] at e4; cases e4
  case pos =>
  by_cases hreg : t.blk.type = .regular
  case neg =>
    have hn := (generate_next hk hreg hg).1
    by_cases hgu : t.blk.type = .get ∧ t.blk.blockUri = uri
    · obtain ⟨next, size, hs⟩ := hB hgu.1 hgu.2
      exact nextBlock_serve hn hs create_noBlock2 List.Pairwise.nil (create_ordinary sx) he
    · obtain ⟨h1, h2⟩ := nextBlock_other (uri := uri) hn hreg (fun h h' => hgu ⟨h, h'⟩)
      exact ⟨fun g1 g2 g3 => absurd g3 (h2 g1 g2 he), fun g1 g2 => absurd g2 (h1 g1)⟩
  case pos =>
    have hoff := hoff t m hta
    cases hh : env.handle t m with
    | reply resp err =>
      unfold generate at hg
      rw [if_neg (by rw [checkCritical_ne]; exact fun h => h hk), if_neg (by simp [hreg]), hh] at hg
      cases hg
      refine ⟨fun g1 g2 g3 => ?_, hB⟩
      rcases hoff g1 g2 with ⟨resp', err', h1, h2⟩ | ⟨resp', b1, b2, bytes, len, rx, h1, -⟩
      · rw [hh] at h1
        cases h1
        exact absurd g3 h2
      · rw [hh] at h1
        cases h1
    | blockwise resp b1 b2 bytes len rx =>
      have hg' := generate_app hreg hk hh hg
      have hresp : Built resp := by have := happ.handle t m; rw [hh] at this; exact this
      by_cases h1 : m.codeDetail = 1
      · rcases handleBlockwise_get h1 hg' with ⟨hx, -⟩ | ⟨blk, L', hs, hnx⟩
        · exact absurd he hx
        by_cases hu : cpath 256 m.ops = uri
        · rcases hoff h1 hu with ⟨resp', err', g1, -⟩ | ⟨resp', b1', b2', bytes', len', rx', g1, g2, g3, g4⟩
          · rw [hh] at g1; cases g1
          · rw [hh] at g1
            cases g1
            rw [hu, g2] at hs
            exact nextBlock_serve hnx hs g3 hresp.sorted g4 he
        · have hreg' : blk.type ≠ .regular := by
            intro h
            rcases hs.type with h' | h' | h' <;> rw [h] at h' <;> cases h'
          obtain ⟨k1, k2⟩ := nextBlock_other (uri := uri) hnx hreg' (fun _ h => hu (hs.path.symm.trans h))
          exact ⟨fun g1 g2 => absurd g2 hu, fun g1 g2 => absurd g2 (k1 g1)⟩
      · refine ⟨fun g1 => absurd g1 h1, ?_⟩
        by_cases h23 : m.codeDetail = 2 ∨ m.codeDetail = 3
        · rcases handleBlockwise_put h23 hg' with ⟨hx, -⟩ | ⟨blk, L', hs, hnx⟩
          · exact absurd he hx
          have hty : blk.type = .put1 ∨ blk.type = .post1 := hs.type
          obtain ⟨k1, k2⟩ := nextBlock_other (uri := uri) hnx (by rintro h; rw [h] at hty; rcases hty with h | h <;> cases h)
            (fun h => by rw [h] at hty; rcases hty with h | h <;> cases h)
          exact fun g1 g2 => absurd g2 (k1 g1)
        · unfold handleBlockwise at hg'
          simp only at hg'
          split at hg'
          · cases hg'; cases he
          split at hg'
          · cases hg'; cases he
          split at hg'
          · cases hg'; cases he
          split at hg'
          · cases hg'; cases he
          rw [if_neg (by omega), clearCode_eq (by decide) (by decide)] at hg'
          cases hg'
          intro h
          cases h

/-- A run in which nothing is known of the application. -/
theorem follow_any {S : Msg → Prop} {sx : Bool} {a : Addr} {evs : List (Env × Event)} {s : Srv} {tr : List (List Obs)}
    (hr : Reach sx evs s tr) (happ : ∀ x ∈ evs, AppOK x.1) (hS : ∀ x ∈ evs, ∀ m, arrived sx a x = some m → Asks m → S m) :
    Tracks (fun x => ∃ m, S m ∧ x.token = m.token) (fun _ => True) s a ∧
      ∀ o ∈ tr, ∀ b, (a, b) ∈ sends o → Server.Empty b ∨ ∃ x, Built x ∧ (∃ m, S m ∧ x.token = m.token) ∧ Formats x b := by
  have hr' := hr
  obtain ⟨id, sepList, pool, h⟩ := hr
  have hFO : ∀ x ∈ evs, FollowOK S (fun _ _ => True) (fun _ => True) (fun _ => True) (fun _ => True) (fun _ => True) a x.1 ∧ AppOK x.1 :=
    fun x hx => ⟨⟨trivial, fun _ _ _ _ _ _ _ _ _ _ _ => ⟨fun _ _ => trivial, fun _ _ => ⟨trivial, trivial⟩⟩, fun _ _ _ _ _ => trivial⟩, happ x hx⟩
  have hinit : Tracks (RespTo (fun _ => False) S (fun _ _ => True)) (fun _ => True) (init id sepList pool) a := by
    intro t ht
    rw [ofAddr_init] at ht
    cases ht
  obtain ⟨h1, h2⟩ := follow_run (R := fun _ _ => True) (C := fun _ _ => True) hFO (init_tidy id sepList pool) h hinit hS (fun _ _ _ _ => trivial) (fun _ _ _ _ => trivial)
  refine ⟨fun t ht => ?_, fun o ho b hb => ?_⟩
  · obtain ⟨g1, -⟩ := h1 t ht
    refine ⟨?_, trivial⟩
    rcases g1 with g1 | ⟨g1, g2⟩
    · exact Or.inl g1
    · rcases g2 with g2 | ⟨m, k1, -, k2, -⟩
      · exact g2.elim
      · exact Or.inr ⟨g1, m, k1, k2⟩
  · rcases (h2 o ho).2 b hb with g | ⟨x, g1, g2, g3⟩
    · exact Or.inl g
    · rcases g2 with g2 | ⟨m, k1, -, k2, -⟩
      · exact g2.elim
      · exact Or.inr ⟨x, g1, ⟨m, k1, k2⟩, g3⟩

end FreeCoAP.EndToEnd
