import Verif.Cross.LemmasUri
import Verif.Uri.Props

/-!
# From options to a URI
-/

namespace FreeCoAP.Cross

open FreeCoAP.Msg (Msg Op Sorted)
open FreeCoAP.Uri (Uri)

theorem toTmp_ok {s v : Bytes} (h : s.length + v.length < TMP) : toTmp s v = .ok (s ++ v) := by
  unfold toTmp; rw [if_pos h]

theorem firstOp_eq {k : Nat} {m : Msg} {o : Option Bytes} (h : values k m = o.toList)
    (ho : ∀ s, o = some s → s.length < TMP ∧ (0 : Byte) ∉ s) : firstOp k m.ops = .ok o := by
  have e : (m.ops.find? (fun o => o.num = k)).map Op.val = o := by
    rw [← List.head?_filter, ← List.head?_map]
    unfold values at h
    rw [h]
    cases o <;> rfl
  unfold firstOp
  cases hf : m.ops.find? (fun o => o.num = k) with
  | none => rw [hf] at e; rw [← e]; rfl
  | some op =>
    rw [hf] at e
    simp only [Option.map_some] at e
    subst e
    obtain ⟨h1, h2⟩ := ho _ rfl
    dsimp only
    rw [if_neg (by omega), toTmp_ok (by simpa using h1), Out.bind_ok, List.nil_append, cstr_of_no_nul h2]
    rfl

theorem joinPath_eq : ∀ (ops : List Op) (s : Bytes),
    s.length + (((ops.filter (fun o => o.num = 11)).map Op.val).flatMap (fun v => 0x2F :: v)).length < TMP →
    joinPath s ops = .ok (s ++ ((ops.filter (fun o => o.num = 11)).map Op.val).flatMap (fun v => 0x2F :: v))
  | [], s, _ => by simp [joinPath]
  | o :: ops, s, h => by
    unfold joinPath
    by_cases hn : o.num = 11
    · rw [List.filter_cons_of_pos (by simpa using hn), List.map_cons, List.flatMap_cons] at h ⊢
      simp only [List.length_append, List.length_cons] at h
      rw [if_pos hn, if_neg (by omega), toTmp_ok (by simp only [List.length_cons, List.length_nil]; omega), Out.bind_ok,
        toTmp_ok (by simp only [List.length_append, List.length_cons, List.length_nil]; omega), Out.bind_ok,
        joinPath_eq ops _ (by simp only [List.length_append, List.length_cons, List.length_nil]; omega)]
      simp only [List.append_assoc, List.cons_append, List.nil_append]
    · rw [List.filter_cons_of_neg (by simpa using hn)] at h ⊢
      rw [if_neg hn]
      exact joinPath_eq ops s h

theorem joinQuery_more : ∀ (ops : List Op) (s : Bytes), 0 < s.length →
    s.length + (((ops.filter (fun o => o.num = 15)).map Op.val).flatMap (fun v => 0x26 :: v)).length < TMP →
    joinQuery s ops = .ok (s ++ ((ops.filter (fun o => o.num = 15)).map Op.val).flatMap (fun v => 0x26 :: v))
  | [], s, _, _ => by simp [joinQuery]
  | o :: ops, s, h0, h => by
    unfold joinQuery
    by_cases hn : o.num = 15
    · rw [List.filter_cons_of_pos (by simpa using hn), List.map_cons, List.flatMap_cons] at h ⊢
      simp only [List.length_append, List.length_cons] at h
      rw [if_pos hn, if_neg (by omega), if_pos h0, toTmp_ok (by simp only [List.length_cons, List.length_nil]; omega), Out.bind_ok,
        toTmp_ok (by simp only [List.length_append, List.length_cons, List.length_nil]; omega), Out.bind_ok,
        joinQuery_more ops _ (by simp only [List.length_append, List.length_cons, List.length_nil]; omega)
          (by simp only [List.length_append, List.length_cons, List.length_nil]; omega)]
      simp only [List.append_assoc, List.cons_append, List.nil_append]
    · rw [List.filter_cons_of_neg (by simpa using hn)] at h ⊢
      rw [if_neg hn]
      exact joinQuery_more ops s h0 h

theorem join_flat {sep : Byte} : ∀ (s : Bytes) (ss : List Bytes), join sep (s :: ss) = s ++ ss.flatMap (fun v => sep :: v)
  | s, [] => by simp [join]
  | s, s' :: ss => by rw [join_cons (by simp), join_flat s' ss, List.flatMap_cons]; rfl

theorem joinQuery_eq : ∀ (ops : List Op), (∀ v ∈ (ops.filter (fun o => o.num = 15)).map Op.val, v ≠ []) →
    (join 0x26 ((ops.filter (fun o => o.num = 15)).map Op.val)).length + 1 < TMP →
    joinQuery [] ops = .ok (join 0x26 ((ops.filter (fun o => o.num = 15)).map Op.val))
  | [], _, _ => rfl
  | o :: ops, hv, h => by
    unfold joinQuery
    by_cases hn : o.num = 15
    · rw [List.filter_cons_of_pos (by simpa using hn), List.map_cons] at h hv ⊢
      rw [join_flat, List.length_append] at h
      rw [join_flat, if_pos hn, if_neg (by simp only [List.length_nil]; omega), if_neg (by simp)]
      have e : (pure [] : Out Bytes) = .ok [] := rfl
      rw [e, Out.bind_ok, toTmp_ok (by simp only [List.length_nil]; omega), Out.bind_ok, List.nil_append]
      exact joinQuery_more ops _ (List.length_pos_iff.2 (hv _ (by simp))) (Nat.lt_of_succ_lt h)
    · rw [List.filter_cons_of_neg (by simpa using hn)] at h hv ⊢
      rw [if_neg hn]
      exact joinQuery_eq ops hv h

/-- No character of the text needs care when a component is set to it. -/
def Simple (s : Bytes) : Prop := (0 : Byte) ∉ s ∧ (0x25 : Byte) ∉ s ∧ (0xFF : Byte) ∉ s

theorem set_simple {sx : Bool} {mem : Uri.Site → Bool} {site : Uri.Site} {s : Bytes} (hm : mem site = true) (h : Simple s)
    (hp : site = .path → s.head? = some 0x2F) : Uri.set sx mem site s = .ok s := by
  rw [Uri.set_eq]
  rw [if_neg (fun h => h.2 (hp h.1))]
  exact component_eq hm (decodes_plain h.2.1) h.2.2 h.1

theorem setComponent_eq {env : Env} {site : Uri.Site} {o : Option Bytes} (hm : env.uri site = true) (hs : site ≠ .path)
    (h : ∀ s, o = some s → Simple s) : setComponent env site o = .ok o := by
  unfold setComponent
  cases o with
  | none => rfl
  | some s =>
    dsimp only
    rw [set_simple hm (h s rfl) (fun e => absurd e hs)]
    rfl

theorem Simple.join {sep : Byte} {ss : List Bytes} (h : ∀ s ∈ ss, Simple s) (h1 : sep ≠ 0) (h2 : sep ≠ 0x25) (h3 : sep ≠ 0xFF) :
    Simple (Cross.join sep ss) := by
  refine ⟨fun hm => ?_, fun hm => ?_, fun hm => ?_⟩
  all_goals
    rcases mem_join hm with e | ⟨s, hs, e⟩
    · first | exact h1 e.symm | exact h2 e.symm | exact h3 e.symm
    · first | exact (h s hs).1 e | exact (h s hs).2.1 e | exact (h s hs).2.2 e

/-- The URI of a list of options. -/
theorem uriOfOps_eq {env : Env} (hm : ∀ s, env.uri s = true) {m : Msg} {host port : Option Bytes} {segs params : List Bytes}
    (h3 : values 3 m = host.toList) (h7 : values 7 m = port.toList) (h11 : values 11 m = segs) (h15 : values 15 m = params)
    (s3 : ∀ s, host = some s → Simple s ∧ s.length < TMP) (s7 : ∀ s, port = some s → Simple s ∧ s.length < TMP)
    (s11 : ∀ s ∈ segs, Simple s) (s15 : ∀ s ∈ params, Simple s ∧ s ≠ [])
    (l11 : (join 0x2F segs).length + 1 < TMP) (l15 : (join 0x26 params).length + 1 < TMP) :
    uriOfOps env m.ops = .ok ⟨some (str "coaps"), none, host, port, some (0x2F :: join 0x2F segs),
      if params = [] then none else some (join 0x26 params), none⟩ := by
  unfold uriOfOps
  have e0 : Uri.set env.sx env.uri .scheme (str "coaps") = .ok (str "coaps") :=
    set_simple (hm _) (by unfold Simple; decide) (by intro h; cases h)
  rw [e0, Out.bind_ok, firstOp_eq h3 (fun s hs => ⟨(s3 s hs).2, (s3 s hs).1.1⟩), Out.bind_ok,
    setComponent_eq (hm _) (by simp) (fun s hs => (s3 s hs).1), Out.bind_ok,
    firstOp_eq h7 (fun s hs => ⟨(s7 s hs).2, (s7 s hs).1.1⟩), Out.bind_ok,
    setComponent_eq (hm _) (by simp) (fun s hs => (s7 s hs).1), Out.bind_ok]
  have hflat : segs ≠ [] → segs.flatMap (fun s => 0x2F :: s) = 0x2F :: join 0x2F segs := path_eq
  have hp : joinPath [] m.ops = .ok (segs.flatMap (fun s => 0x2F :: s)) := by
    unfold values at h11
    rw [joinPath_eq _ _ (by
      rw [h11]
      by_cases hn : segs = []
      · rw [hn]; simp [TMP]
      · rw [hflat hn]; simp only [List.length_cons, List.length_nil]; omega), h11]
    rfl
  have hq : joinQuery [] m.ops = .ok (join 0x26 params) := by
    unfold values at h15
    rw [joinQuery_eq _ (by rw [h15]; exact fun v hv => (s15 v hv).2) (by rw [h15]; exact l15), h15]
  rw [hp, Out.bind_ok]
  have hsimple : Simple (0x2F :: join 0x2F segs) := by
    have := Simple.join (sep := 0x2F) s11 (by decide) (by decide) (by decide)
    refine ⟨?_, ?_, ?_⟩
    · exact fun h => (List.mem_cons.1 h).elim (by decide) this.1
    · exact fun h => (List.mem_cons.1 h).elim (by decide) this.2.1
    · exact fun h => (List.mem_cons.1 h).elim (by decide) this.2.2
  have e1 : (if (segs.flatMap (fun s => (0x2F : Byte) :: s)).length = 0 then [0x2F] else cstr (segs.flatMap (fun s => (0x2F : Byte) :: s))) =
      0x2F :: join 0x2F segs := by
    by_cases hn : segs = []
    · rw [hn]; rfl
    · rw [hflat hn, if_neg (by simp), cstr_of_no_nul hsimple.1]
  rw [e1, set_simple (hm _) hsimple (fun _ => rfl), Out.bind_ok, hq, Out.bind_ok]
  have e2 : (if (join 0x26 params).length > 0 then some (cstr (join 0x26 params)) else none) =
      if params = [] then none else some (join 0x26 params) := by
    by_cases hn : params = []
    · rw [hn]; rfl
    · have : 0 < (join 0x26 params).length := by
        obtain ⟨p, ps, rfl⟩ := List.exists_cons_of_ne_nil hn
        rw [join_flat, List.length_append]
        have := List.length_pos_iff.2 (s15 p (by simp)).2
        omega
      rw [if_pos this, if_neg hn, cstr_of_no_nul (Simple.join (fun s hs => (s15 s hs).1) (by decide) (by decide) (by decide)).1]
  rw [e2, setComponent_eq (hm _) (by simp)]
  · rfl
  · intro s hs
    split at hs
    · cases hs
    · cases hs
      exact Simple.join (fun s hs => (s15 s hs).1) (by decide) (by decide) (by decide)

end FreeCoAP.Cross
