import Verif.Cross.Lemmas

/-!
# Reading the text of a `coap` URI
-/

namespace FreeCoAP.Cross

open FreeCoAP.Msg (Msg Op Sorted)
open FreeCoAP.Uri (Uri)

theorem mem_delims {c : Byte} : c ∉ str "/?#@[]" ↔ c ≠ 0x2F ∧ c ≠ 0x3F ∧ c ≠ 0x23 ∧ c ≠ 0x40 ∧ c ≠ 0x5B ∧ c ≠ 0x5D := by
  have : str "/?#@[]" = [0x2F, 0x3F, 0x23, 0x40, 0x5B, 0x5D] := by decide
  rw [this]
  simp

theorem mem_delims2 {c : Byte} : c ∉ str "/?#" ↔ c ≠ 0x2F ∧ c ≠ 0x3F ∧ c ≠ 0x23 := by
  have : str "/?#" = [0x2F, 0x3F, 0x23] := by decide
  rw [this]
  simp

theorem mem_delims3 {c : Byte} : c ∉ str "&#" ↔ c ≠ 0x26 ∧ c ≠ 0x23 := by
  have : str "&#" = [0x26, 0x23] := by decide
  rw [this]
  simp

theorem digit_ne {c : Byte} (h : isDigit c = true) : c ≠ 0x2F ∧ c ≠ 0x3F ∧ c ≠ 0x23 ∧ c ≠ 0x40 ∧ c ≠ 0x25 := by
  have := forall_byte (P := fun c => isDigit c = true → c ≠ 0x2F ∧ c ≠ 0x3F ∧ c ≠ 0x23 ∧ c ≠ 0x40 ∧ c ≠ 0x25) (by decide +kernel) c
  exact this h

/-- The text of the host. -/
def CoapUri.hostText (r : CoapUri) : Bytes := if r.literal then 0x5B :: r.host ++ [0x5D] else r.host

/-- The text of the port. -/
def CoapUri.portText (r : CoapUri) : Bytes := after 0x3A r.port

theorem hier_eq (r : CoapUri) : r.hier = r.hostText ++ (r.portText ++ r.path) := by
  unfold CoapUri.hier CoapUri.hostText CoapUri.portText
  rw [List.append_assoc]

theorem findPort_hostText {r : CoapUri} (hw : r.WF) (t : Bytes) :
    Uri.findPort false (r.hostText ++ t) = (Uri.findPort false t).map (fun p => (r.hostText ++ p.1, p.2)) := by
  obtain ⟨-, h2, h3⟩ := hw.host
  unfold CoapUri.hostText
  cases hl : r.literal with
  | false =>
    simp only [Bool.false_eq_true, if_false]
    exact Uri.findPort_skip t (h3 hl) (fun h => (mem_delims.1 (h2 _ h)).2.2.2.2.1 rfl)
  | true =>
    simp only [if_true]
    have e : (0x5B :: r.host ++ [0x5D]) ++ t = 0x5B :: (r.host ++ 0x5D :: t) := by simp
    rw [e, Uri.findPort.eq_def]
    simp only [Bool.not_false, if_true]
    rw [Uri.findPort_inside t (fun h => (mem_delims.1 (h2 _ h)).2.2.2.2.2 rfl)]
    cases Uri.findPort false t <;> simp

theorem path_chars {r : CoapUri} (hw : r.WF) : ∀ c ∈ r.path, c ≠ 0x3F ∧ c ≠ 0x23 := by
  intro c hc
  unfold CoapUri.path at hc
  obtain ⟨s, hs, hc⟩ := List.mem_flatMap.1 hc
  rcases List.mem_cons.1 hc with rfl | hc
  · decide
  · exact (mem_delims2.1 (hw.segments s hs c hc)).2

theorem hostText_chars {r : CoapUri} (hw : r.WF) : ∀ c ∈ r.hostText, c ≠ 0x2F ∧ c ≠ 0x3F ∧ c ≠ 0x23 ∧ c ≠ 0x40 := by
  intro c hc
  have key : c ∈ r.host → c ≠ 0x2F ∧ c ≠ 0x3F ∧ c ≠ 0x23 ∧ c ≠ 0x40 := by
    intro h
    obtain ⟨k1, k2, k3, k4, -⟩ := mem_delims.1 (hw.host.2.1 _ h)
    exact ⟨k1, k2, k3, k4⟩
  unfold CoapUri.hostText at hc
  split at hc
  · rcases List.mem_append.1 hc with hc | hc
    · rcases List.mem_cons.1 hc with rfl | hc
      · decide
      · exact key hc
    · simp only [List.mem_singleton] at hc
      subst hc
      decide
  · exact key hc

theorem portText_chars {r : CoapUri} (hw : r.WF) : ∀ c ∈ r.portText, c ≠ 0x2F ∧ c ≠ 0x3F ∧ c ≠ 0x23 ∧ c ≠ 0x40 := by
  intro c hc
  unfold CoapUri.portText at hc
  cases hp : r.port with
  | none => rw [hp] at hc; cases hc
  | some p =>
    rw [hp] at hc
    rcases List.mem_cons.1 hc with rfl | hc
    · decide
    · obtain ⟨k1, k2, k3, k4, -⟩ := digit_ne (hw.port p hp c hc)
      exact ⟨k1, k2, k3, k4⟩

theorem hier_chars {r : CoapUri} (hw : r.WF) : ∀ c ∈ 0x2F :: 0x2F :: r.hier, c ∉ ([0x3F, 0x23] : Bytes) := by
  intro c hc
  have : c ≠ 0x3F ∧ c ≠ 0x23 := by
    rcases List.mem_cons.1 hc with rfl | hc
    · decide
    rcases List.mem_cons.1 hc with rfl | hc
    · decide
    rw [hier_eq] at hc
    rcases List.mem_append.1 hc with hc | hc
    · exact ⟨(hostText_chars hw c hc).2.1, (hostText_chars hw c hc).2.2.1⟩
    rcases List.mem_append.1 hc with hc | hc
    · exact ⟨(portText_chars hw c hc).2.1, (portText_chars hw c hc).2.2.1⟩
    · exact path_chars hw c hc
  simpa using this

/-- The path after the first slash, if there is a segment. -/
def CoapUri.afterSlash (r : CoapUri) : Option Bytes := if r.segments = [] then none else some (join 0x2F r.segments)

theorem cut_slash {r : CoapUri} (t : Bytes) (h : (0x2F : Byte) ∉ t) :
    cut 0x2F (t ++ r.path) = r.afterSlash.map (fun p => (t, p)) := by
  unfold CoapUri.path CoapUri.afterSlash
  by_cases hs : r.segments = []
  · rw [hs, if_pos rfl]
    simp only [List.flatMap_nil, List.append_nil, Option.map_none]
    exact cut_eq_none.2 h
  · rw [path_eq hs, if_neg hs]
    exact cut_eq_some.2 ⟨rfl, h⟩

theorem path_nil {r : CoapUri} (h : r.afterSlash = none) : r.path = [] := by
  unfold CoapUri.afterSlash at h
  split at h
  · rename_i hs
    unfold CoapUri.path
    rw [hs]
    rfl
  · cases h

theorem splitPort_eq {r : CoapUri} (hw : r.WF) (hc : r.port = none → ∀ s ∈ r.segments, (0x3A : Byte) ∉ s) :
    Uri.splitPort r.hier = (r.hostText, r.port, r.afterSlash) := by
  have h1 : (0x2F : Byte) ∉ r.hostText := fun h => (hostText_chars hw _ h).1 rfl
  unfold Uri.splitPort
  rw [hier_eq, findPort_hostText hw]
  cases hp : r.port with
  | some p =>
    have e : r.portText ++ r.path = 0x3A :: (p ++ r.path) := by unfold CoapUri.portText; rw [hp]; rfl
    rw [e, Uri.findPort_colon]
    simp only [Option.map_some, List.append_nil]
    rw [cut_slash p (fun h => (digit_ne (hw.port p hp _ h)).1 rfl)]
    cases ha : r.afterSlash with
    | some q => rfl
    | none => simp only [Option.map_none]; rw [path_nil ha, List.append_nil]
  | none =>
    have e : r.portText = [] := by unfold CoapUri.portText; rw [hp]; rfl
    rw [e, List.nil_append, Uri.findPort_none]
    · simp only [Option.map_none]
      rw [cut_slash _ h1]
      cases ha : r.afterSlash with
      | some q => rfl
      | none => simp only [Option.map_none]; rw [path_nil ha, List.append_nil]
    · intro h
      unfold CoapUri.path at h
      obtain ⟨s, hs, h⟩ := List.mem_flatMap.1 h
      rcases List.mem_cons.1 h with h | h
      · exact absurd h (by decide)
      · exact hc hp s hs h

theorem strip_eq {r : CoapUri} (hw : r.WF) : Uri.stripBrackets r.hostText = r.host := by
  obtain ⟨-, h2, -⟩ := hw.host
  unfold Uri.stripBrackets CoapUri.hostText
  cases hl : r.literal with
  | true =>
    simp only [if_true]
    rw [if_pos ⟨by simp, rfl, List.getLast?_concat⟩]
    simp
  | false =>
    simp only [Bool.false_eq_true, if_false]
    rw [if_neg]
    rintro ⟨-, h, -⟩
    exact (mem_delims.1 (h2 _ (List.mem_of_mem_head? h))).2.2.2.2.1 rfl

theorem path_at {r : CoapUri} (ha : ∀ s ∈ r.segments, (0x40 : Byte) ∉ s) : (0x40 : Byte) ∉ r.path := by
  intro h
  unfold CoapUri.path at h
  obtain ⟨s, hs, h⟩ := List.mem_flatMap.1 h
  rcases List.mem_cons.1 h with h | h
  · exact absurd h (by decide)
  · exact ha s hs h

theorem lower_id {s : Bytes} {t : Bytes} (h : s.map toLower = t) {x : Byte} (hx : toLower x = x) (ht : x ∉ t) : x ∉ s := by
  intro hm
  apply ht
  rw [← h]
  exact List.mem_map.2 ⟨x, hm, hx⟩

theorem scheme_chars {r : CoapUri} (hw : r.WF) : r.scheme ≠ [] ∧ (0x3A : Byte) ∉ r.scheme ∧ (0x25 : Byte) ∉ r.scheme ∧
    (0x2F : Byte) ∉ r.scheme ∧ (0 : Byte) ∉ r.scheme ∧ (0xFF : Byte) ∉ r.scheme := by
  rcases hw.scheme with h | h <;>
  · refine ⟨?_, lower_id h (by decide) (by decide), lower_id h (by decide) (by decide), lower_id h (by decide) (by decide),
      lower_id h (by decide) (by decide), lower_id h (by decide) (by decide)⟩
    intro e
    rw [e] at h
    exact absurd h (by decide)

/-- The URI that the text of a `coap` URI is read as. -/
theorem parse_eq {sx : Bool} {mem : Uri.Site → Bool} {r : CoapUri} (hm : ∀ s, mem s = true) (hw : r.WF) {host : Bytes}
    {segs params : List Bytes} (hd : Decoded r host segs params)
    (ha : ∀ s ∈ r.segments, (0x40 : Byte) ∉ s) (hc : r.port = none → ∀ s ∈ r.segments, (0x3A : Byte) ∉ s)
    (h0 : (0 : Byte) ∉ host ∧ (∀ s ∈ segs, (0 : Byte) ∉ s) ∧ (∀ s ∈ params, (0 : Byte) ∉ s)) :
    Uri.parse sx mem r.text = .ok { scheme := some r.scheme, host := some host, port := r.port, path := if segs = [] then none else some (0x2F :: join 0x2F segs), query := r.params.map (fun _ => join 0x26 params) } := by
  have hff : ∀ {t : Bytes}, (∀ c ∈ t, c ∈ r.text) → (0xFF : Byte) ∉ t := by
    intro t ht h
    exact absurd (hw.ascii _ (ht _ h)).2 (by decide)
  obtain ⟨k1, k2, k3, k4, k5, k6⟩ := scheme_chars hw
  have e : r.text = r.scheme ++ 0x3A :: ((0x2F :: 0x2F :: r.hier) ++
      after 0x3F (r.params.map (join 0x26))) := by
    unfold CoapUri.text
    have : str "://" = [0x3A, 0x2F, 0x2F] := by decide
    rw [this]
    simp only [List.append_assoc, List.cons_append, List.nil_append]
  have hhost : ∀ c ∈ r.host, c ∈ r.text := by
    intro c hc
    rw [e, hier_eq]
    unfold CoapUri.hostText
    split <;> simp [hc]
  have hpath : ∀ c ∈ r.path, c ∈ r.text := by
    intro c hc
    rw [e, hier_eq]
    simp [hc]
  have hport : ∀ p, r.port = some p → ∀ c ∈ p, c ∈ r.text := by
    intro p hp c hc
    rw [e, hier_eq]
    unfold CoapUri.portText
    rw [hp]
    simp [hc, after]
  have hquery : ∀ ps, r.params = some ps → ∀ c ∈ join 0x26 ps, c ∈ r.text := by
    intro ps hp c hc
    rw [e, hp]
    simp [hc, after]
  have hhead : r.text.head? ≠ some 0x2F := by
    rw [e]
    cases hs : r.scheme with
    | nil => exact absurd hs k1
    | cons c s =>
      intro h
      simp only [List.cons_append, List.head?_cons, Option.some.injEq] at h
      rw [hs, h] at k4
      exact k4 List.mem_cons_self
  have hsch : Uri.parseScheme sx mem {} r.text = .ok ({ scheme := some r.scheme }, (0x2F :: 0x2F :: r.hier) ++
      after 0x3F (r.params.map (join 0x26))) := by
    unfold Uri.parseScheme
    rw [e, cut_append _ k2]
    dsimp only
    rw [if_pos (by have := List.length_pos_iff.2 k1; omega), component_eq (hm _) (decodes_plain k3) k6 k5]
    rfl
  have hh : Uri.parseHier sx mem { scheme := some r.scheme } (0x2F :: 0x2F :: r.hier) =
      .ok { scheme := some r.scheme, host := some host, port := r.port, path := if segs = [] then none else some (0x2F :: join 0x2F segs) } := by
    rw [Uri.parseHier_slashes]
    have hu : Uri.parseUserinfo sx mem { scheme := some r.scheme } r.hier = .ok ({ scheme := some r.scheme }, r.hier) := by
      unfold Uri.parseUserinfo
      rw [cut_eq_none.2]
      · rfl
      · rw [hier_eq]
        intro h
        rcases List.mem_append.1 h with h | h
        · exact (hostText_chars hw _ h).2.2.2 rfl
        rcases List.mem_append.1 h with h | h
        · exact (portText_chars hw _ h).2.2.2 rfl
        · exact path_at ha h
    rw [hu, Out.bind_ok]
    dsimp only
    rw [splitPort_eq hw hc]
    dsimp only
    have hho : ∀ u : Uri, Uri.parseHost sx mem u r.hostText = .ok { u with host := some host } := by
      intro u
      unfold Uri.parseHost
      rw [strip_eq hw, if_pos (by have := List.length_pos_iff.2 hw.host.1; omega),
        component_eq (hm _) hd.host (hff hhost) h0.1]
      rfl
    rw [hho, Out.bind_ok]
    have hpo : ∀ u : Uri, u.port = none → Uri.parsePort sx mem u r.port = .ok { u with port := r.port } := by
      intro u hu
      unfold Uri.parsePort
      cases hp : r.port with
      | none => dsimp only; rw [← hu]; rfl
      | some p =>
        dsimp only
        rw [component_eq (hm _) (decodes_plain (fun h => (digit_ne (hw.port p hp _ h)).2.2.2.2 rfl)) (hff (hport p hp))]
        · rfl
        · intro h
          exact absurd (hw.ascii _ (hport p hp _ h)).1 (by decide)
    rw [hpo _ rfl, Out.bind_ok]
    unfold Uri.parsePath CoapUri.afterSlash
    by_cases hs : r.segments = []
    · rw [if_pos hs, if_pos (hd.segments.nil_iff.1 hs)]
      rfl
    · rw [if_neg hs, if_neg (fun h => hs (hd.segments.nil_iff.2 h))]
      dsimp only
      rw [Uri.slashed_eq, component_eq (hm _) (hd.segments.join (by decide))]
      · rfl
      · apply hff
        intro c hc
        apply hpath
        unfold CoapUri.path
        rw [path_eq hs]
        exact List.mem_cons_of_mem _ hc
      · intro h
        rcases mem_join h with h | ⟨s, h1, h2⟩
        · exact absurd h (by decide)
        · exact h0.2.1 s h1 h2
  unfold Uri.parse
  rw [if_neg (by rw [hm]; simp), if_neg hhead, hsch, Out.bind_ok]
  dsimp only
  have hq := hd.params
  cases hp : r.params with
  | none =>
    rw [hp] at hq
    simp only [Option.map_none, after]
    rw [List.append_nil, Uri.strsep_none (hier_chars hw)]
    dsimp only
    rw [hh]
    rfl
  | some ps =>
    rw [hp, Option.getD_some] at hq
    simp only [Option.map_some, after]
    rw [Uri.strsep_some _ (hier_chars hw) (by simp)]
    dsimp only
    rw [hh, Out.bind_ok]
    unfold Uri.parseQuery
    dsimp only
    rw [if_pos rfl, Uri.strsep_none]
    · dsimp only
      rw [component_eq (hm _) (hq.join (by decide)) (hff (hquery ps hp))]
      · rfl
      · intro h
        rcases mem_join h with h | ⟨s, h1, h2⟩
        · exact absurd h (by decide)
        · exact h0.2.2 s h1 h2
    · intro c hc
      rcases mem_join hc with rfl | ⟨s, h1, h2⟩
      · decide
      · have := mem_delims3.1 ((hw.params ps hp).2 s h1 c h2)
        simpa using this.2

end FreeCoAP.Cross
