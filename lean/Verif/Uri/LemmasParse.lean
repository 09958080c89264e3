import Verif.Uri.Lemmas

/-!
# Parsing the text of a URI
-/

namespace FreeCoAP.Uri

theorem strsep_none {ds a : Bytes} (h : ∀ c ∈ a, c ∉ ds) : strsep ds a = (a, none) := by
  induction a with
  | nil => rfl
  | cons c a ih =>
    unfold strsep
    rw [ih (fun x hx => h x (List.mem_cons_of_mem _ hx))]
    rw [if_neg (by rw [List.contains_iff_mem]; exact h c List.mem_cons_self)]

theorem strsep_some {ds a : Bytes} {c : Byte} (b : Bytes) (h : ∀ c ∈ a, c ∉ ds) (hc : c ∈ ds) :
    strsep ds (a ++ c :: b) = (a, some (c, b)) := by
  induction a with
  | nil =>
    simp only [List.nil_append]
    unfold strsep
    rw [if_pos (by rw [List.contains_iff_mem]; exact hc)]
  | cons x a ih =>
    rw [List.cons_append]
    unfold strsep
    rw [ih (fun x hx => h x (List.mem_cons_of_mem _ hx))]
    rw [if_neg (by rw [List.contains_iff_mem]; exact h x List.mem_cons_self)]

theorem findPort_none {b : Bool} {s : Bytes} (h : (0x3A : Byte) ∉ s) : findPort b s = none := by
  induction s generalizing b with
  | nil => rfl
  | cons c s ih =>
    unfold findPort
    simp only
    have hc : c ≠ 0x3A := fun e => h (e ▸ List.mem_cons_self)
    rw [if_neg (by simp [hc]), ih (fun hm => h (List.mem_cons_of_mem _ hm))]
    rfl

theorem findPort_colon (r : Bytes) : findPort false (0x3A :: r) = some ([], r) := by
  unfold findPort
  simp

theorem findPort_skip {s : Bytes} (r : Bytes) (h1 : (0x3A : Byte) ∉ s) (h2 : (0x5B : Byte) ∉ s) :
    findPort false (s ++ r) = (findPort false r).map (fun p => (s ++ p.1, p.2)) := by
  induction s with
  | nil => simp
  | cons c s ih =>
    have e1 : c ≠ 0x3A := fun e => h1 (e ▸ List.mem_cons_self)
    have e2 : c ≠ 0x5B := fun e => h2 (e ▸ List.mem_cons_self)
    rw [List.cons_append, findPort.eq_def]
    simp only [Bool.not_false, if_true, if_neg e2, e1, decide_false, Bool.and_false, Bool.false_eq_true, if_false]
    rw [ih (fun hm => h1 (List.mem_cons_of_mem _ hm)) (fun hm => h2 (List.mem_cons_of_mem _ hm)), Option.map_map]
    rfl

theorem findPort_inside {s : Bytes} (r : Bytes) (h : (0x5D : Byte) ∉ s) :
    findPort true (s ++ 0x5D :: r) = (findPort false r).map (fun p => (s ++ 0x5D :: p.1, p.2)) := by
  induction s with
  | nil =>
    rw [List.nil_append, findPort.eq_def]
    simp
  | cons c s ih =>
    have e1 : c ≠ 0x5D := fun e => h (e ▸ List.mem_cons_self)
    rw [List.cons_append, findPort.eq_def]
    simp only [Bool.not_true, Bool.false_eq_true, if_false, if_neg e1, Bool.false_and]
    rw [ih (fun hm => h (List.mem_cons_of_mem _ hm)), Option.map_map]
    rfl

theorem str_colon : str ":" = [0x3A] := by decide
theorem str_at : str "@" = [0x40] := by decide
theorem str_open : str "[" = [0x5B] := by decide
theorem str_close : str "]" = [0x5D] := by decide
theorem str_slashes : str "//" = [0x2F, 0x2F] := by decide
theorem str_quest : str "?" = [0x3F] := by decide
theorem str_hash : str "#" = [0x23] := by decide
theorem str_path : str "/:@" = [0x2F, 0x3A, 0x40] := by decide
theorem str_query : str "?/:@" = [0x3F, 0x2F, 0x3A, 0x40] := by decide

/-- The characters of the host. -/
theorem not_mem_host {h : Option Bytes} {x : Byte} (h1 : ¬ Literal x) (h2 : x ≠ 0x25) (h3 : x ≠ 0x3A) (h4 : x ≠ 0x5B)
    (h5 : x ≠ 0x5D) : x ∉ hostText h := by
  cases h with
  | none => simp [hostText]
  | some s =>
    rw [hostText_some, str_open, str_close, str_colon]
    split
    · simp only [List.cons_append, List.nil_append, List.mem_cons, List.mem_append, List.not_mem_nil, or_false, not_or]
      exact ⟨h4, not_mem_pct h1 (Or.inl (by simp [h3])) h2, h5⟩
    · exact not_mem_pct h1 (Or.inl (by simp)) h2

theorem findPort_host (h : Option Bytes) (r : Bytes) :
    findPort false (hostText h ++ r) = (findPort false r).map (fun p => (hostText h ++ p.1, p.2)) := by
  cases h with
  | none => simp [hostText]
  | some s =>
    rw [hostText_some, str_open, str_close, str_colon]
    split
    · have e1 : ([0x5B] ++ (pct [0x3A] s ++ [0x5D]) ++ r : Bytes) = 0x5B :: (pct [0x3A] s ++ 0x5D :: r) := by simp
      rw [e1, findPort.eq_def]
      simp only [Bool.not_false, if_true, Bool.not_true, Bool.false_and, Bool.false_eq_true, if_false]
      rw [findPort_inside _ (not_mem_pct not_literal_close (Or.inl (by decide)) (by decide)), Option.map_map]
      congr 1
      funext p
      simp
    · exact findPort_skip r (not_mem_pct not_literal_colon (Or.inl (by simp)) (by decide))
        (not_mem_pct not_literal_open (Or.inl (by simp)) (by decide))

/-- Without its brackets the text of a host is an encoding of the host. -/
theorem parseHost_host {sx : Bool} {mem : Site → Bool} {h : Option Bytes} (hm : mem .host = true) (hn : h ≠ some [])
    (hc : ∀ s, h = some s → (0 : Byte) ∉ s) (u : Uri) (hu : u.host = none) :
    parseHost sx mem u (hostText h) = .ok { u with host := h } := by
  unfold parseHost
  cases h with
  | none =>
    have : stripBrackets (hostText none) = [] := by decide
    rw [this, if_neg (by decide)]
    cases u; cases hu; rfl
  | some s =>
    have hs : s ≠ [] := fun e => hn (e ▸ rfl)
    have key : ∃ ex, (0x25 : Byte) ∉ ex ∧ (0xFF : Byte) ∉ ex ∧ stripBrackets (hostText (some s)) = pct ex s := by
      rw [hostText_some]
      split
      · refine ⟨str ":", by decide, by decide, ?_⟩
        rw [str_open, str_close]
        unfold stripBrackets
        have hne : pct (str ":") s ≠ [] := pct_ne_nil hs
        have hl : 0 < (pct (str ":") s).length := List.length_pos_iff.2 hne
        rw [if_pos]
        · simp
        · refine ⟨by simp, by simp, ?_⟩
          rw [← List.append_assoc, List.getLast?_concat]
      · refine ⟨[], by decide, by decide, ?_⟩
        unfold stripBrackets
        rw [if_neg]
        rintro ⟨-, h1, -⟩
        have := (pct_head not_literal_open (by decide) h1).2
        cases this
    obtain ⟨ex, h1, h2, h3⟩ := key
    rw [h3, if_pos (by have := List.length_pos_iff.2 (pct_ne_nil (ex := ex) hs); omega),
      component_pct hm h1 h2 (hc s rfl)]
    rfl

/-- The text of a path, after an authority: nothing or a slash and the rest. -/
theorem path_text {p : Option Bytes} (h : ∀ s, p = some s → s.head? = some 0x2F) :
    part [] (str "/:@") [] p = [] ∧ p = none ∨
      ∃ s, p = some (0x2F :: s) ∧ part [] (str "/:@") [] p = 0x2F :: pct (str "/:@") s := by
  cases p with
  | none => exact Or.inl ⟨rfl, rfl⟩
  | some s =>
    have := h s rfl
    cases s with
    | nil => cases this
    | cons c s =>
      cases this
      refine Or.inr ⟨s, rfl, ?_⟩
      simp only [part, List.nil_append, List.append_nil, pct_cons]
      rfl

/-- Host, port and path are told apart. -/
theorem splitPort_text {h port path : Option Bytes} (hr : ∀ s, path = some s → s.head? = some 0x2F)
    (hc : port = none → ∀ s, path = some s → (0x3A : Byte) ∉ s) :
    splitPort (hostText h ++ part (str ":") [] [] port ++ part [] (str "/:@") [] path) =
      (hostText h, port.map (pct []), path.map (fun s => pct (str "/:@") (s.drop 1))) := by
  have hslash : (0x2F : Byte) ∉ hostText h := not_mem_host not_literal_slash (by decide) (by decide) (by decide) (by decide)
  cases port with
  | some p =>
    have hp : (0x2F : Byte) ∉ pct [] p := not_mem_pct not_literal_slash (Or.inl (by simp)) (by decide)
    have e : hostText h ++ part (str ":") [] [] (some p) ++ part [] (str "/:@") [] path =
        hostText h ++ (0x3A :: (pct [] p ++ part [] (str "/:@") [] path)) := by
      simp [part, str_colon]
    unfold splitPort
    rw [e, findPort_host, findPort_colon]
    simp only [Option.map_some, List.append_nil]
    rcases path_text hr with ⟨e1, e2⟩ | ⟨s, e1, e2⟩
    · rw [e1, e2, List.append_nil, cut_eq_none.2 hp]
      rfl
    · rw [e2, e1, cut_append _ hp]
      rfl
  | none =>
    have e : hostText h ++ part (str ":") [] [] none ++ part [] (str "/:@") [] path =
        hostText h ++ part [] (str "/:@") [] path := by simp [part]
    have hn : (0x3A : Byte) ∉ part [] (str "/:@") [] path := by
      cases hp : path with
      | none => simp [part]
      | some s =>
        simp only [part, List.nil_append, List.append_nil]
        exact not_mem_pct not_literal_colon (Or.inr (hc rfl s hp)) (by decide)
    unfold splitPort
    rw [e, findPort_host, findPort_none hn]
    simp only [Option.map_none]
    rcases path_text hr with ⟨e1, e2⟩ | ⟨s, e1, e2⟩
    · rw [e1, e2, List.append_nil, cut_eq_none.2 hslash]
      rfl
    · rw [e2, e1, cut_append _ hslash]
      rfl

/-- The hierarchical part of the text of a URI. -/
def hier (u : Uri) : Bytes :=
  (if Authority u then str "//" else []) ++ part [] (str ":") (str "@") u.userinfo ++
  hostText u.host ++ part (str ":") [] [] u.port ++ part [] (str "/:@") [] u.path

theorem parseHier_slashes (sx : Bool) (mem : Site → Bool) (u : Uri) (p : Bytes) :
    parseHier sx mem u (0x2F :: 0x2F :: p) = (parseUserinfo sx mem u p >>= fun r =>
      parseHost sx mem r.1 (splitPort r.2).1 >>= fun u =>
      parsePort sx mem u (splitPort r.2).2.1 >>= fun u => parsePath sx mem u (splitPort r.2).2.2) := rfl

theorem hier_authority {sx : Bool} {mem : Site → Bool} {u : Uri} (hm : ∀ s, mem s = true) (hr : Readable u)
    (ha : Authority u) :
    parseHier sx mem { scheme := u.scheme } (hier u) = .ok { u with query := none, fragment := none } := by
  have hcl := hr.clean
  have e : hier u = 0x2F :: 0x2F :: (part [] (str ":") (str "@") u.userinfo ++
      (hostText u.host ++ part (str ":") [] [] u.port ++ part [] (str "/:@") [] u.path)) := by
    unfold hier
    rw [if_pos ha, str_slashes]
    simp
  have hu : parseUserinfo sx mem { scheme := u.scheme } (part [] (str ":") (str "@") u.userinfo ++
      (hostText u.host ++ part (str ":") [] [] u.port ++ part [] (str "/:@") [] u.path)) =
      .ok ({ scheme := u.scheme, userinfo := u.userinfo },
        hostText u.host ++ part (str ":") [] [] u.port ++ part [] (str "/:@") [] u.path) := by
    unfold parseUserinfo
    cases hui : u.userinfo with
    | some s =>
      have e1 : part [] (str ":") (str "@") (some s) ++
          (hostText u.host ++ part (str ":") [] [] u.port ++ part [] (str "/:@") [] u.path) =
          pct (str ":") s ++ 0x40 :: (hostText u.host ++ part (str ":") [] [] u.port ++ part [] (str "/:@") [] u.path) := by
        simp [part, str_at]
      rw [e1, cut_append _ (not_mem_pct not_literal_at (Or.inl (by decide)) (by decide))]
      simp only
      rw [component_pct (hm _) (by decide) (by decide) (hcl s (by simp [hui]))]
      rfl
    | none =>
      have e1 : part [] (str ":") (str "@") none ++
          (hostText u.host ++ part (str ":") [] [] u.port ++ part [] (str "/:@") [] u.path) =
          hostText u.host ++ part (str ":") [] [] u.port ++ part [] (str "/:@") [] u.path := by
        simp [part]
      have e2 : (0x40 : Byte) ∉ hostText u.host ++ part (str ":") [] [] u.port ++ part [] (str "/:@") [] u.path := by
        simp only [List.mem_append, not_or]
        refine ⟨⟨not_mem_host not_literal_at (by decide) (by decide) (by decide) (by decide), ?_⟩, ?_⟩
        · cases u.port with
          | none => simp [part]
          | some p =>
            simp only [part, str_colon, List.append_nil, List.cons_append, List.nil_append, List.mem_cons, not_or]
            exact ⟨by decide, not_mem_pct not_literal_at (Or.inl (by simp)) (by decide)⟩
        · cases hp : u.path with
          | none => simp [part]
          | some p =>
            simp only [part, List.append_nil, List.nil_append]
            exact not_mem_pct not_literal_at (Or.inr (hr.atSign p ha hui hp)) (by decide)
      rw [e1, cut_eq_none.2 e2]
      rfl
  rw [e, parseHier_slashes]
  rw [hu, Out.bind_ok, splitPort_text (fun s hs => hr.rooted s ha hs) (fun hp s hs => hr.colon s ha hp hs)]
  simp only
  rw [parseHost_host (hm _) hr.host (fun s hs => hcl s (by simp [hs])) _ rfl, Out.bind_ok]
  have hport : ∀ v : Uri, v.port = none → parsePort sx mem v (u.port.map (pct [])) = .ok { v with port := u.port } := by
    intro v hv
    cases hp : u.port with
    | none => cases v; cases hv; rfl
    | some p =>
      simp only [Option.map_some, parsePort]
      rw [component_pct (hm _) (by simp) (by simp) (hcl p (by simp [hp]))]
      rfl
  have hpath : ∀ v : Uri, v.path = none →
      parsePath sx mem v (u.path.map (fun s => pct (str "/:@") (s.drop 1))) = .ok { v with path := u.path } := by
    intro v hv
    cases hp : u.path with
    | none => cases v; cases hv; rfl
    | some p =>
      have hh := hr.rooted p ha hp
      cases p with
      | nil => cases hh
      | cons c p =>
        cases hh
        have := hcl _ (by rw [hp]; simp : _ ∨ _ ∨ _ ∨ _ ∨ u.path = some (0x2F :: p) ∨ _ ∨ _)
        simp only [Option.map_some, parsePath, List.drop_succ_cons, List.drop_zero]
        rw [slashed_eq, component_pct (hm _) (by decide) (by decide) (fun h => this (List.mem_cons_of_mem _ h))]
        rfl
  rw [hport _ rfl, Out.bind_ok, hpath _ rfl]

theorem hier_path {sx : Bool} {mem : Site → Bool} {u : Uri} (hm : ∀ s, mem s = true) (hr : Readable u)
    (ha : ¬ Authority u) :
    parseHier sx mem { scheme := u.scheme } (hier u) = .ok { u with query := none, fragment := none } := by
  have hcl := hr.clean
  have hau := ha
  simp only [Authority, not_or, Classical.not_not] at hau
  obtain ⟨h1, h2, h3⟩ := hau
  have e : hier u = part [] (str "/:@") [] u.path := by
    unfold hier
    rw [if_neg ha, h1, h2, h3]
    simp [part, hostText]
  rw [e]
  cases hp : u.path with
  | none =>
    simp only [part]
    unfold parseHier
    cases u
    simp_all
  | some p =>
    have hne : p ≠ [] := fun e => hr.path (e ▸ hp)
    have hns := hr.noslash p ha hp
    simp only [part, List.nil_append, List.append_nil]
    have hc := component_pct (sx := sx) (mem := mem) (site := .path) (ex := str "/:@") (hm _) (by decide) (by decide)
      (hcl p (by simp [hp]))
    have hn1 : pct (str "/:@") p ≠ [] := pct_ne_nil hne
    have hn2 : ∀ r, pct (str "/:@") p ≠ 0x2F :: 0x2F :: r := by
      intro r hr'
      have := (pct_head not_literal_slash (by decide) (by rw [hr']; rfl)).1
      cases p with
      | nil => cases this
      | cons c p =>
        cases this
        rw [pct_cons, show pctByte (str "/:@") 0x2F = [0x2F] from by decide, List.singleton_append] at hr'
        injection hr' with _ hr'
        have := (pct_head not_literal_slash (by decide) (by rw [hr']; rfl)).1
        cases p with
        | nil => cases this
        | cons c p =>
          cases this
          exact hns ⟨p, by rw [str_slashes]; rfl⟩
    generalize pct (str "/:@") p = t at hc hn1 hn2
    unfold parseHier
    split
    · exact absurd rfl (hn2 _)
    · exact absurd rfl hn1
    · rw [hc]
      cases u
      simp_all

theorem hier_eq {sx : Bool} {mem : Site → Bool} {u : Uri} (hm : ∀ s, mem s = true) (hr : Readable u) :
    parseHier sx mem { scheme := u.scheme } (hier u) = .ok { u with query := none, fragment := none } := by
  by_cases ha : Authority u
  · exact hier_authority hm hr ha
  · exact hier_path hm hr ha

/-- The text from the query on. -/
def tail (u : Uri) : Bytes := part (str "?") (str "?/:@") [] u.query ++ part (str "#") (str "?/:@") [] u.fragment

theorem text_eq (u : Uri) : text u = part [] [] (str ":") u.scheme ++ (hier u ++ tail u) := by
  simp only [text, hier, tail, List.append_assoc]

theorem not_mem_part {before ex after : Bytes} {o : Option Bytes} {x : Byte} (h1 : ¬ Literal x) (h2 : x ≠ 0x25)
    (h3 : x ∉ before) (h4 : x ∉ ex) (h5 : x ∉ after) : x ∉ part before ex after o := by
  cases o with
  | none => simp [part]
  | some s =>
    simp only [part, List.mem_append, not_or]
    exact ⟨⟨h3, not_mem_pct h1 (Or.inl h4) h2⟩, h5⟩

theorem hier_delims (u : Uri) : ∀ c ∈ hier u, c ∉ ([0x3F, 0x23] : Bytes) := by
  have key : ∀ x : Byte, x = 0x3F ∨ x = 0x23 → x ∉ hier u := by
    intro x hx
    have h1 : ¬ Literal x := by rcases hx with rfl | rfl; exact not_literal_quest; exact not_literal_hash
    have h2 : x ≠ 0x25 := by rcases hx with rfl | rfl <;> decide
    unfold hier
    simp only [List.mem_append, not_or]
    refine ⟨⟨⟨⟨?_, ?_⟩, ?_⟩, ?_⟩, ?_⟩
    · split
      · rcases hx with rfl | rfl <;> decide
      · simp
    · exact not_mem_part h1 h2 (by simp) (by rcases hx with rfl | rfl <;> decide) (by rcases hx with rfl | rfl <;> decide)
    · exact not_mem_host h1 h2 (by rcases hx with rfl | rfl <;> decide) (by rcases hx with rfl | rfl <;> decide)
        (by rcases hx with rfl | rfl <;> decide)
    · exact not_mem_part h1 h2 (by rcases hx with rfl | rfl <;> decide) (by simp) (by simp)
    · exact not_mem_part h1 h2 (by simp) (by rcases hx with rfl | rfl <;> decide) (by simp)
  intro c hc hd
  simp only [List.mem_cons, List.not_mem_nil, or_false] at hd
  exact key c hd hc

theorem tail_eq {sx : Bool} {mem : Site → Bool} {u : Uri} (hm : ∀ s, mem s = true) (hc : Clean u) :
    (parseHier sx mem { scheme := u.scheme } (hier u) = .ok { u with query := none, fragment := none }) →
    (parseHier sx mem { scheme := u.scheme } (strsep [0x3F, 0x23] (hier u ++ tail u)).1 >>= fun v =>
      parseQuery sx mem v (strsep [0x3F, 0x23] (hier u ++ tail u)).2 >>= fun r => parseFragment sx mem r.1 r.2) = .ok u := by
  intro hh
  have hfrag : ∀ f, u.fragment = some f → ∀ v : Uri,
      parseFragment sx mem v (some (0x23, pct (str "?/:@") f)) = .ok { v with fragment := u.fragment } := by
    intro f hf v
    simp only [parseFragment, if_true]
    rw [component_pct (hm _) (by decide) (by decide) (hc f (by simp [hf])), hf]
    rfl
  cases hq : u.query with
  | some q =>
    have hqs : ∀ c ∈ pct (str "?/:@") q, c ∉ ([0x23] : Bytes) := by
      intro c h1 h2
      simp only [List.mem_singleton] at h2
      subst h2
      exact not_mem_pct not_literal_hash (Or.inl (by decide)) (by decide) h1
    have et : tail u = 0x3F :: (pct (str "?/:@") q ++ part (str "#") (str "?/:@") [] u.fragment) := by
      unfold tail; rw [hq]; simp [part, str_quest]
    rw [et, strsep_some _ (hier_delims u) (by simp), hh]
    simp only [Out.bind_ok, parseQuery, if_true]
    have hcq := component_pct (sx := sx) (mem := mem) (site := .query) (ex := str "?/:@") (hm _) (by decide) (by decide)
      (hc q (by simp [hq]))
    cases hf : u.fragment with
    | none =>
      simp only [part, List.append_nil]
      rw [strsep_none hqs]
      simp only
      rw [hcq]
      simp only [Out.bind_ok, Out.pure_eq, parseFragment]
      cases u; simp_all
    | some f =>
      have ef : part (str "#") (str "?/:@") [] (some f) = 0x23 :: pct (str "?/:@") f := by simp [part, str_hash]
      rw [ef, strsep_some _ hqs (by simp)]
      simp only
      rw [hcq]
      simp only [Out.bind_ok, Out.pure_eq]
      rw [hfrag f hf]
      cases u; simp_all
  | none =>
    cases hf : u.fragment with
    | none =>
      have et : tail u = [] := by unfold tail; rw [hq, hf]; rfl
      rw [et, List.append_nil, strsep_none (hier_delims u), hh]
      simp only [Out.bind_ok, parseQuery, Out.pure_eq, parseFragment]
      cases u; simp_all
    | some f =>
      have et : tail u = 0x23 :: pct (str "?/:@") f := by unfold tail; rw [hq, hf]; simp [part, str_hash]
      rw [et, strsep_some _ (hier_delims u) (by simp), hh]
      simp only [Out.bind_ok, parseQuery, Out.pure_eq]
      rw [if_neg (by decide), Out.bind_ok]
      simp only
      rw [hfrag f hf]
      cases u; simp_all

/-- Reading the text of a readable URI gives the URI. -/
theorem parse_text {sx : Bool} {mem : Site → Bool} {u : Uri} (hm : ∀ s, mem s = true) (hr : Readable u) :
    parse sx mem (text u) = .ok u := by
  have key : (if (text u).head? = some 0x2F then pure ({}, text u) else parseScheme sx mem {} (text u)) =
      Out.ok ({ scheme := u.scheme }, hier u ++ tail u) := by
    rw [text_eq]
    cases hs : u.scheme with
    | some s =>
      have hne : s ≠ [] := fun e => hr.scheme (e ▸ hs)
      have hc : (0x3A : Byte) ∉ pct [] s := not_mem_pct not_literal_colon (Or.inl (by simp)) (by decide)
      have e : part [] [] (str ":") (some s) ++ (hier u ++ tail u) = pct [] s ++ 0x3A :: (hier u ++ tail u) := by
        simp [part, str_colon]
      rw [e, if_neg]
      · unfold parseScheme
        rw [cut_append _ hc]
        simp only
        rw [if_pos (by have := List.length_pos_iff.2 (pct_ne_nil (ex := []) hne); omega),
          component_pct (hm _) (by simp) (by simp) (hr.clean s (by simp [hs]))]
        rfl
      · intro hh
        cases hp : pct [] s with
        | nil => exact pct_ne_nil hne hp
        | cons y ys =>
          rw [hp] at hh
          have := (pct_head (ex := []) (s := s) not_literal_slash (by decide) (by rw [hp]; exact hh)).2
          cases this
    | none =>
      have e : part [] [] (str ":") none ++ (hier u ++ tail u) = hier u ++ tail u := rfl
      rw [e]
      by_cases hh : (hier u ++ tail u).head? = some 0x2F
      · rw [if_pos hh]; rfl
      · rw [if_neg hh]
        have hn : (0x3A : Byte) ∉ hier u ++ tail u := by
          rcases hr.relative hs with ha | ⟨p, hp, hd⟩ | hno
          · refine absurd ?_ hh
            unfold hier
            rw [if_pos ha, str_slashes]
            rfl
          · by_cases ha : Authority u
            · refine absurd ?_ hh
              unfold hier
              rw [if_pos ha, str_slashes]
              rfl
            · refine absurd ?_ hh
              have hau := ha
              simp only [Authority, not_or, Classical.not_not] at hau
              obtain ⟨h1, h2, h3⟩ := hau
              unfold hier
              rw [if_neg ha, h1, h2, h3, hp]
              cases p with
              | nil => cases hd
              | cons c p =>
                cases hd
                simp only [part, hostText, List.nil_append, List.append_nil, pct_cons]
                rfl
          · by_cases ha : Authority u
            · refine absurd ?_ hh
              unfold hier
              rw [if_pos ha, str_slashes]
              rfl
            · have hau := ha
              simp only [Authority, not_or, Classical.not_not] at hau
              obtain ⟨h1, h2, h3⟩ := hau
              unfold hier tail
              rw [if_neg ha, h1, h2, h3]
              simp only [part, hostText, List.nil_append, List.mem_append, not_or]
              refine ⟨?_, ?_, ?_⟩
              · cases hp : u.path with
                | none => simp
                | some p =>
                  simp only [List.nil_append, List.append_nil]
                  exact not_mem_pct not_literal_colon (Or.inr (hno p (by simp [hp]))) (by decide)
              · cases hp : u.query with
                | none => simp
                | some p =>
                  simp only [List.append_nil, List.mem_append, not_or]
                  exact ⟨by decide, not_mem_pct not_literal_colon (Or.inr (hno p (by simp [hp]))) (by decide)⟩
              · cases hp : u.fragment with
                | none => simp
                | some p =>
                  simp only [List.append_nil, List.mem_append, not_or]
                  exact ⟨by decide, not_mem_pct not_literal_colon (Or.inr (hno p (by simp [hp]))) (by decide)⟩
        unfold parseScheme
        rw [cut_eq_none.2 hn]
  unfold parse
  rw [if_neg (by rw [hm]; decide), key, Out.bind_ok]
  exact tail_eq hm hr.clean (hier_eq hm hr)

end FreeCoAP.Uri
