import Verif.Cross.Props
import Verif.Cross.LemmasMsg

/-!
# C57: from Uri options to a URI and back
-/

namespace FreeCoAP.Cross

open FreeCoAP.Msg (Msg Op Sorted)
open FreeCoAP.Http (HMsg Header)
open FreeCoAP.Uri (Uri)

/-- The Uri options of a message: at most one host and port, and no empty value. -/
structure HasUri (m : Msg) (host port : Option Bytes) (segs params : List Bytes) : Prop where
  ofHost : values 3 m = host.toList
  ofPort : values 7 m = port.toList
  path : values 11 m = segs
  query : values 15 m = params
  full : ∀ s, (host = some s ∨ port = some s ∨ s ∈ segs ∨ s ∈ params) → s ≠ []

/-- C57 in full: if the options are written as a URI, converting this URI gives the options back. -/
def C57_statement : Prop :=
  ∀ (env : Env) (m : Msg) host port segs params (buf b : Bytes) (len : Nat), env.Ample → HasUri m host port segs params →
    0 < len → len ≤ buf.length → len < 2 ^ 64 → uriToHttp env buf len m.ops = .ok b →
    ∃ m', uriToCoap env Msg.create (cstr b) = .ok m' ∧ HasUri m' host port segs params

theorem filter_full {ss : List Bytes} (h : ∀ s ∈ ss, s ≠ []) : ss.filter (· ≠ []) = ss :=
  List.filter_eq_self.2 (fun s hs => by simpa using h s hs)

/-- C57 for options without NUL, percent sign and byte 255 that fit into the buffers, when no segment contains a slash
or, after a host or port, an `@` or (without a port) a colon, and no part of the query an `&`. -/
theorem C57_roundtrip_partial {env : Env} {m m0 : Msg} {host port : Option Bytes} {segs params : List Bytes} {buf : Bytes} {len : Nat}
    (he : env.Ample) (hu : HasUri m host port segs params) (hs : Sorted m0.ops)
    (hsimple : ∀ s, (host = some s ∨ port = some s ∨ s ∈ segs ∨ s ∈ params) → Simple s ∧ s.length < 256)
    (l11 : (join 0x2F segs).length + 1 < 256) (l15 : (join 0x26 params).length + 1 < 256)
    (hslash : ∀ s ∈ segs, (0x2F : Byte) ∉ s) (hamp : ∀ s ∈ params, (0x26 : Byte) ∉ s)
    (hat : host ≠ none ∨ port ≠ none → ∀ s ∈ segs, (0x40 : Byte) ∉ s)
    (hcolon : host ≠ none → port = none → ∀ s ∈ segs, (0x3A : Byte) ∉ s)
    (hl : len ≤ buf.length) (hl64 : len < 2 ^ 64)
    (hfit : (Uri.text ⟨some (str "coaps"), none, host, port, some (0x2F :: join 0x2F segs),
      if params = [] then none else some (join 0x26 params), none⟩).length < len) :
    ∃ b m', uriToHttp env buf len m.ops = .ok b ∧ uriToCoap env m0 (cstr b) = .ok m' ∧
      values 3 m' = values 3 m0 ++ values 3 m ∧ values 7 m' = values 7 m0 ++ values 7 m ∧
      values 11 m' = values 11 m0 ++ values 11 m ∧ values 15 m' = values 15 m0 ++ values 15 m ∧
      (∀ k, k ≠ 3 → k ≠ 7 → k ≠ 11 → k ≠ 15 → values k m' = values k m0) := by
  obtain ⟨u, hU⟩ : ∃ u : Uri, u = ⟨some (str "coaps"), none, host, port, some (0x2F :: join 0x2F segs),
      if params = [] then none else some (join 0x26 params), none⟩ := ⟨_, rfl⟩
  rw [← hU] at hfit
  have hops : uriOfOps env m.ops = .ok u := by
    rw [hU]
    exact uriOfOps_eq he.1 hu.ofHost hu.ofPort hu.path hu.query (fun s h => hsimple s (Or.inl h)) (fun s h => hsimple s (Or.inr (Or.inl h)))
      (fun s h => (hsimple s (Or.inr (Or.inr (Or.inl h)))).1)
      (fun s h => ⟨(hsimple s (Or.inr (Or.inr (Or.inr h)))).1, hu.full s (Or.inr (Or.inr (Or.inr h)))⟩) l11 l15
  have hpath : ∀ p, u.path = some p → p = 0x2F :: join 0x2F segs := by intro p h; rw [hU] at h; cases h; rfl
  have hauth : Uri.Authority u → host ≠ none ∨ port ≠ none := by
    intro h
    rw [hU] at h
    rcases h with h | h
    · exact absurd rfl h
    · exact h
  have hR : Uri.Readable u := by
    have hj11 : Simple (join 0x2F segs) := Simple.join (fun s h => (hsimple s (Or.inr (Or.inr (Or.inl h)))).1) (by decide) (by decide) (by decide)
    have hj15 : Simple (join 0x26 params) := Simple.join (fun s h => (hsimple s (Or.inr (Or.inr (Or.inr h)))).1) (by decide) (by decide) (by decide)
    refine ⟨?_, ?_, ?_, ?_, ?_, ?_, ?_, ?_, ?_⟩
    · intro s h
      rw [hU] at h
      dsimp only at h
      rcases h with h | h | h | h | h | h | h
      · cases h; decide
      · cases h
      · exact (hsimple s (Or.inl h)).1.1
      · exact (hsimple s (Or.inr (Or.inl h))).1.1
      · cases h
        exact fun h => (List.mem_cons.1 h).elim (by decide) hj11.1
      · split at h
        · cases h
        · cases h; exact hj15.1
      · cases h
    · rw [hU]; dsimp only; decide
    · rw [hU]
      intro h
      exact hu.full [] (Or.inl h) rfl
    · rw [hU]; simp
    · intro p _ h; rw [hpath p h]; rfl
    · intro p _ h hpre
      rw [hpath p h, Uri.str_slashes] at hpre
      cases segs with
      | nil => simp [join] at hpre
      | cons s ss =>
        rw [join_flat] at hpre
        have hs := hu.full s (Or.inr (Or.inr (Or.inl (by simp))))
        have hsl := hslash s (by simp)
        cases s with
        | nil => exact hs rfl
        | cons c s =>
          simp only [List.cons_append, List.cons_prefix_cons] at hpre
          exact hsl (hpre.2.1 ▸ List.mem_cons_self)
    · intro h; rw [hU] at h; cases h
    · intro p ha _ h hm
      rw [hpath p h] at hm
      rcases List.mem_cons.1 hm with e | hm
      · exact absurd e (by decide)
      rcases mem_join hm with e | ⟨s, h1, h2⟩
      · exact absurd e (by decide)
      · exact hat (hauth ha) s h1 h2
    · intro p ha hp h hm
      have hp' : port = none := by rw [hU] at hp; exact hp
      have hh : host ≠ none := (hauth ha).elim id (fun h => absurd hp' h)
      rw [hpath p h] at hm
      rcases List.mem_cons.1 hm with e | hm
      · exact absurd e (by decide)
      rcases mem_join hm with e | ⟨s, h1, h2⟩
      · exact absurd e (by decide)
      · exact hcolon hh hp' s h1 h2
  obtain ⟨b, pre, e, hb, -⟩ := Uri.C41_generate u hl
  have hparse := Uri.C40_roundtrip_partial (sx := env.sx) he.1 hR hl e hfit
  have e1 : uriToHttp env buf len m.ops = .ok b := by
    unfold uriToHttp
    rw [hops, Out.bind_ok, e, Out.bind_ok]
    dsimp only
    rw [if_neg (by
      have : (len + 2 ^ 64 - 1) % 2 ^ 64 = len - 1 := by
        have : len + 2 ^ 64 - 1 = len - 1 + 2 ^ 64 := by omega
        rw [this, Nat.add_mod_right, Nat.mod_eq_of_lt (by omega)]
      rw [this]; omega)]
    rfl
  have big : ∀ {n : Nat}, n < TMP → n < 2 ^ 32 := fun h => Nat.lt_trans h (by decide)
  obtain ⟨m1, e2⟩ := addComponent_ok (env := env) he.2.2.1 m0 3 host
  have k1 := addComponent_added hs (fun s h => big (hsimple s (Or.inl h)).2) e2
  obtain ⟨m2, e3⟩ := addComponent_ok (env := env) he.2.2.1 m1 7 port
  have k2 := addComponent_added k1.sorted (fun s h => big (hsimple s (Or.inr (Or.inl h))).2) e3
  obtain ⟨m3, e4, k3⟩ : ∃ m3, addPath env m2 (some (0x2F :: join 0x2F segs)) = .ok m3 ∧ Added m2 m3 11 segs := by
    have e : addPath env m2 (some (0x2F :: join 0x2F segs)) = addParts env 11 m2 (split 0x2F (join 0x2F segs)) := rfl
    by_cases hn : segs = []
    · subst hn
      exact ⟨m2, rfl, Added.refl k2.sorted 11⟩
    · rw [e, split_join hn hslash]
      obtain ⟨m3, e3⟩ := addParts_ok (env := env) (num := 11) he.2.2.1 segs m2
      have := addParts_added k2.sorted (fun s h => big (hsimple s (Or.inr (Or.inr (Or.inl h)))).2) e3
      rw [filter_full (fun s h => hu.full s (Or.inr (Or.inr (Or.inl h))))] at this
      exact ⟨m3, e3, this⟩
  obtain ⟨m4, e5, k4⟩ : ∃ m4, addQuery env m3 (if params = [] then none else some (join 0x26 params)) = .ok m4 ∧ Added m3 m4 15 params := by
    by_cases hn : params = []
    · subst hn
      exact ⟨m3, rfl, Added.refl k3.sorted 15⟩
    · rw [if_neg hn]
      unfold addQuery
      dsimp only
      rw [split_join hn hamp]
      obtain ⟨m4, e4⟩ := addParts_ok (env := env) (num := 15) he.2.2.1 params m3
      have := addParts_added k3.sorted (fun s h => big (hsimple s (Or.inr (Or.inr (Or.inr h)))).2) e4
      rw [filter_full (fun s h => hu.full s (Or.inr (Or.inr (Or.inr h))))] at this
      exact ⟨m4, e4, this⟩
  have key : ∀ k, values k m4 = values k m0 ++ (if 3 = k then host.toList else []) ++ (if 7 = k then port.toList else []) ++
      (if 11 = k then segs else []) ++ (if 15 = k then params else []) := by
    intro k
    rw [k4.vals, k3.vals, k2.vals, k1.vals]
  refine ⟨b, m4, e1, ?_, ?_, ?_, ?_, ?_, ?_⟩
  · unfold uriToCoap
    rw [hparse, Out.bind_ok]
    have hc : checkUri u = .ok () := by
      rw [hU]
      unfold checkUri
      dsimp only
      rw [if_pos (by decide +kernel)]
    rw [hc, Out.bind_ok, hU]
    dsimp only
    rw [e2, Out.bind_ok, e3, Out.bind_ok, e4, Out.bind_ok, e5]
  · rw [key, hu.ofHost]; simp
  · rw [key, hu.ofPort]; simp
  · rw [key, hu.path]; simp
  · rw [key, hu.query]; simp
  · intro k j1 j2 j3 j4
    rw [key, if_neg (Ne.symm j1), if_neg (Ne.symm j2), if_neg (Ne.symm j3), if_neg (Ne.symm j4)]
    simp

/-- A message with the options of `coaps://h:5684/a b/c?x&y`. -/
def exOps : Msg := { Msg.create with ops := [⟨3, str "h"⟩, ⟨7, str "5684"⟩, ⟨11, str "a b"⟩, ⟨11, str "c"⟩, ⟨15, str "x"⟩, ⟨15, str "y"⟩] }

/-- The hypotheses are met. -/
example : HasUri exOps (some (str "h")) (some (str "5684")) [str "a b", str "c"] [str "x", str "y"] ∧
    (∀ s, (some (str "h") = some s ∨ some (str "5684") = some s ∨ s ∈ [str "a b", str "c"] ∨ s ∈ [str "x", str "y"]) → Simple s ∧ s.length < TMP) ∧
    uriToHttp ample (List.replicate 40 0xAA) 32 exOps.ops =
      .ok (str "coaps://h:5684/a%20b/c?x&y" ++ List.replicate 6 0 ++ List.replicate 8 0xAA) := by
  have hd : ∀ s, (some (str "h") = some s ∨ some (str "5684") = some s ∨ s ∈ [str "a b", str "c"] ∨ s ∈ [str "x", str "y"]) →
      s ∈ [str "h", str "5684", str "a b", str "c", str "x", str "y"] := by
    intro s h
    simp only [Option.some.injEq, List.mem_cons, List.not_mem_nil, or_false] at h ⊢
    grind
  refine ⟨⟨by decide +kernel, by decide +kernel, by decide +kernel, by decide +kernel, fun s h => ?_⟩, fun s h => ?_, by decide +kernel⟩
  · exact (by decide +kernel : ∀ s ∈ [str "h", str "5684", str "a b", str "c", str "x", str "y"], s ≠ []) s (hd s h)
  · exact (by unfold Simple; decide +kernel : ∀ s ∈ [str "h", str "5684", str "a b", str "c", str "x", str "y"], Simple s ∧ s.length < TMP) s (hd s h)

/-- A message with the Uri-Path `a/b`. -/
def slashOps : Msg := { Msg.create with ops := [⟨3, str "h"⟩, ⟨11, str "a/b"⟩] }

/-- C57 fails: a slash within a segment is written as it is. -/
theorem C57_violated : ¬ C57_statement := by
  intro h
  have e : uriToHttp ample (List.replicate 16 0) 16 slashOps.ops = .ok (str "coaps://h/a/b" ++ [0, 0, 0]) := by decide +kernel
  obtain ⟨m', e', hu⟩ := h ample slashOps (some (str "h")) none [str "a/b"] [] _ _ 16 ample_ample
    ⟨by decide +kernel, by decide +kernel, by decide +kernel, by decide +kernel, by
      intro s h
      have : s ∈ [str "h", str "a/b"] := by
        simp only [Option.some.injEq, List.mem_cons, List.not_mem_nil, or_false] at h ⊢
        rcases h with h | h | h
        · exact Or.inl h.symm
        · cases h
        · exact Or.inr h
      exact (by decide +kernel : ∀ s ∈ [str "h", str "a/b"], s ≠ []) s this⟩ (by decide) (by decide) (by decide) e
  have e2 : uriToCoap ample Msg.create (cstr (str "coaps://h/a/b" ++ [0, 0, 0])) =
      .ok { Msg.create with ops := [⟨3, str "h"⟩, ⟨11, str "a"⟩, ⟨11, str "b"⟩] } := by decide +kernel
  rw [e2] at e'
  cases e'
  exact absurd hu.path (by decide +kernel)

/-- A percent sign in an option is taken for an escape: Uri-Path `%41` becomes `A`. -/
theorem C57_violated_percent :
    ∃ b, uriToHttp ample (List.replicate 16 0) 16 [⟨3, str "h"⟩, ⟨11, str "%41"⟩] = .ok b ∧
      uriToCoap ample Msg.create (cstr b) = .ok { Msg.create with ops := [⟨3, str "h"⟩, ⟨11, str "A"⟩] } :=
  ⟨str "coaps://h/A" ++ List.replicate 5 0, by decide +kernel, by decide +kernel⟩

theorem bind_ne_ub {α β : Type} {x : Out α} {f : α → Out β} (h1 : x ≠ .ub) (h2 : ∀ a, x = .ok a → f a ≠ .ub) : (x >>= f) ≠ .ub := by
  intro h
  rcases Out.bind_eq_ub.1 h with h | ⟨a, e, h⟩
  · exact h1 h
  · exact h2 a e h

theorem pure_ne_ub {α : Type} (a : α) : (pure a : Out α) ≠ .ub := by intro h; cases h

theorem toTmp_length {s v r : Bytes} (h : toTmp s v = .ok r) : r = s ++ v ∧ r.length < TMP := by
  unfold toTmp at h
  split at h
  · rename_i hl
    cases h
    exact ⟨rfl, by rw [List.length_append]; exact hl⟩
  · cases h

theorem toTmp_ne_ub {s v : Bytes} (h : s.length + v.length < TMP) : toTmp s v ≠ .ub := by
  rw [toTmp_ok h]; simp

theorem set_ne_ub (sx : Bool) (mem : Uri.Site → Bool) (site : Uri.Site) (s : Bytes) : Uri.set sx mem site s ≠ .ub := by
  rw [Uri.set_eq]; rw [Uri.component_eq]; unfold Uri.decode
  repeat' split
  all_goals simp

theorem joinPath_ne_ub : ∀ (ops : List Op) (s : Bytes), s.length < TMP → joinPath s ops ≠ .ub
  | [], s, _ => by simp [joinPath]
  | o :: ops, s, h => by
    unfold joinPath
    split
    · split
      · simp
      · rename_i hl
        refine bind_ne_ub (toTmp_ne_ub (by simp only [List.length_cons, List.length_nil]; omega)) (fun t ht => ?_)
        have h1 := toTmp_length ht
        have hlen : t.length = s.length + 1 := by rw [h1.1]; simp
        refine bind_ne_ub (toTmp_ne_ub (by omega)) (fun t' ht' => ?_)
        exact joinPath_ne_ub ops t' (toTmp_length ht').2
    · exact joinPath_ne_ub ops s h

theorem joinQuery_ne_ub : ∀ (ops : List Op) (s : Bytes), s.length < TMP → joinQuery s ops ≠ .ub
  | [], s, _ => by simp [joinQuery]
  | o :: ops, s, h => by
    unfold joinQuery
    split
    · split
      · simp
      · rename_i hl
        have hl1 : (if s.length > 0 then toTmp s [0x26] else pure s) = .ok (if s.length > 0 then s ++ [0x26] else s) := by
          split
          · rw [toTmp_ok (by simp only [List.length_cons, List.length_nil]; omega)]
          · rfl
        rw [hl1, Out.bind_ok]
        have hl2 : (if s.length > 0 then s ++ [0x26] else s).length ≤ s.length + 1 := by
          split
          · simp
          · omega
        refine bind_ne_ub (toTmp_ne_ub (by omega)) (fun t' ht' => ?_)
        exact joinQuery_ne_ub ops t' (toTmp_length ht').2
    · exact joinQuery_ne_ub ops s h

/-- Whatever the options, writing them as a URI stays within the temporary buffer and the caller's buffer. -/
theorem C57_inside (env : Env) (ops : List Op) {buf : Bytes} {len : Nat} (hl : len ≤ buf.length) :
    uriToHttp env buf len ops ≠ .ub ∧ ∀ b, uriToHttp env buf len ops = .ok b → b.length = buf.length ∧ b.drop len = buf.drop len := by
  have hf : ∀ k, firstOp k ops ≠ .ub := by
    intro k
    unfold firstOp
    split
    · simp
    · split
      · simp
      · rename_i h
        exact bind_ne_ub (toTmp_ne_ub (by simp only [List.length_nil]; omega)) (fun _ _ => pure_ne_ub _)
  have hc : ∀ site o, setComponent env site o ≠ .ub := by
    intro site o
    cases o with
    | none => exact pure_ne_ub _
    | some s => exact bind_ne_ub (set_ne_ub _ _ _ _) (fun _ _ => pure_ne_ub _)
  constructor
  · unfold uriToHttp
    refine bind_ne_ub ?_ (fun u _ => ?_)
    · unfold uriOfOps
      exact bind_ne_ub (set_ne_ub _ _ _ _) fun _ _ => bind_ne_ub (hf _) fun _ _ => bind_ne_ub (hc _ _) fun _ _ =>
        bind_ne_ub (hf _) fun _ _ => bind_ne_ub (hc _ _) fun _ _ => bind_ne_ub (joinPath_ne_ub _ _ (by decide)) fun _ _ =>
        bind_ne_ub (set_ne_ub _ _ _ _) fun _ _ => bind_ne_ub (joinQuery_ne_ub _ _ (by decide)) fun _ _ =>
        bind_ne_ub (hc _ _) fun _ _ => pure_ne_ub _
    · obtain ⟨b, pre, e, -⟩ := Uri.C41_generate u hl
      rw [e, Out.bind_ok]
      dsimp only
      split
      · simp
      · exact pure_ne_ub _
  · intro b h
    unfold uriToHttp at h
    obtain ⟨u, -, h⟩ := Out.bind_eq_ok.1 h
    obtain ⟨⟨b', n⟩, e, h⟩ := Out.bind_eq_ok.1 h
    dsimp only at h
    split at h
    · cases h
    · cases h
      exact (Uri.C41_inside u hl e).2

end FreeCoAP.Cross
