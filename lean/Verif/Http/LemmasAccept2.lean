import Verif.Http.LemmasAccept

/-!
# What is accepted: bodies and whole messages
-/

namespace FreeCoAP.Http

variable {mem : Nat → Bool}

/-! ## The announced length -/

theorem contentLen_split (hs : List Header) : (NoLength hs ∧ contentLen hs = 0) ∨
    ∃ a h b, hs = a ++ h :: b ∧ Named h "Content-Length" ∧ (∀ h ∈ b, ¬ Named h "Content-Length") ∧
      contentLen hs = toSize (atoi h.value) := by
  by_cases h : NoLength hs
  · exact .inl ⟨h, contentLen_none h⟩
  · right
    have last : ∀ (l : List Header), ¬ NoLength l → ∃ a h b, l = a ++ h :: b ∧ Named h "Content-Length" ∧
        ∀ h ∈ b, ¬ Named h "Content-Length" := by
      intro l
      induction l with
      | nil => intro h; exact absurd (fun _ hx => by cases hx) h
      | cons x l ih =>
        intro h
        by_cases hl : NoLength l
        · refine ⟨[], x, l, rfl, ?_, hl⟩
          by_cases hx : Named x "Content-Length"
          · exact hx
          · exact absurd (fun y hy => by
              cases hy with
              | head => exact hx
              | tail _ hy => exact hl y hy) h
        · obtain ⟨a, y, b, rfl, h1, h2⟩ := ih hl
          exact ⟨x :: a, y, b, rfl, h1, h2⟩
    obtain ⟨a, x, b, rfl, h1, h2⟩ := last hs h
    refine ⟨a, x, b, rfl, h1, h2, ?_⟩
    clear h
    unfold contentLen
    rw [List.foldl_append, List.foldl_cons, if_pos ((sameText_iff _ _).2 h1)]
    generalize toSize (atoi x.value) = n
    induction b with
    | nil => rfl
    | cons y b ih =>
      rw [List.foldl_cons, if_neg (fun e => h2 y (by simp) ((sameText_iff _ _).1 e))]
      exact ih (fun z hz => h2 z (List.mem_cons_of_mem _ hz))

theorem toSize_small {z : Int} (h : toSize (toInt32 z) < 2 ^ 31) : Stored z (toSize (toInt32 z)) := by
  unfold toSize toInt32 at *
  unfold Stored
  omega

theorem toSize_of {z : Int} {n : Nat} (h : Stored z n) : toSize (toInt32 z) = n := by
  rw [toInt32_of h]
  obtain ⟨h, -⟩ := h
  unfold toSize
  omega

theorem announces_of {hs : List Header} (h : contentLen hs < 2 ^ 31) : Announces hs (contentLen hs) := by
  rcases contentLen_split hs with ⟨h1, h2⟩ | ⟨a, x, b, e, h1, h2, h3⟩
  · exact .inl ⟨h1, h2⟩
  · obtain ⟨z, hz, ez⟩ := atoi_spec x.value
    rw [ez] at h3
    refine .inr ⟨a, x, b, z, e, h1, h2, hz, ?_⟩
    rw [h3] at h ⊢
    exact toSize_small h

theorem split_unique {P : α → Prop} : {a a' b b' : List α} → {x x' : α} → P x → P x' → (∀ y ∈ b, ¬ P y) →
    (∀ y ∈ b', ¬ P y) → a ++ x :: b = a' ++ x' :: b' → x = x'
  | [], [], _, _, _, _, _, _, _, _, e => by cases e; rfl
  | [], _ :: a', b, b', x, x', _, hx', hb, _, e => by
    cases e
    exact absurd hx' (hb x' (by simp))
  | _ :: a, [], b, b', x, x', hx, _, _, hb', e => by
    cases e
    exact absurd hx (hb' x (by simp))
  | _ :: a, _ :: a', _, _, _, _, hx, hx', hb, hb', e => by
    rw [List.cons_append, List.cons_append, List.cons.injEq] at e
    exact split_unique hx hx' hb hb' e.2

theorem contentLen_of {hs : List Header} {n : Nat} (h : Announces hs n) : contentLen hs = n := by
  rcases h with ⟨h1, rfl⟩ | ⟨a, x, b, z, e, h1, h2, hz, hs'⟩
  · exact contentLen_none h1
  · rcases contentLen_split hs with ⟨h3, -⟩ | ⟨a', x', b', e', h1', h2', h3'⟩
    · exact absurd h1 (h3 x (by rw [e]; simp))
    · have := split_unique (P := fun h => Named h "Content-Length") h1 h1' h2 h2' (e.symm.trans e')
      subst this
      rw [h3', atoi_of hz]
      exact toSize_of hs'

/-! ## Chunks -/

theorem chunks_nonzero : (fuel : Nat) → {t : Bytes} → {pos : Nat} → {t' : Bytes} → {cs : List (Nat × Int)} → {n : Nat} →
    chunks fuel t pos = .ok (t', cs, n) → ∀ c ∈ cs, c.2 ≠ 0
  | 0, _, _, _, _, _, h => by cases h
  | fuel + 1, t, pos, t', cs, n, h => by
    unfold chunks at h
    cases hc : crlfFrom t pos with
    | none => rw [hc] at h; cases h
    | some next =>
      rw [hc] at h
      dsimp only at h
      cases hs : scanHex ((dropParam t pos next).drop pos) with
      | none => rw [hs] at h; cases h
      | some v =>
        rw [hs] at h
        dsimp only at h
        split at h
        · cases h; simp
        · rename_i hv
          split at h
          · cases h
          · split at h
            · cases h
            · split at h
              · cases h
              · obtain ⟨r, hr, h⟩ := Out.bind_eq_ok.1 h
                obtain ⟨t1, cs1, n1⟩ := r
                cases h
                intro c hc
                cases hc with
                | head => exact hv
                | tail _ hc => exact chunks_nonzero fuel hr c hc

theorem gather_nonneg {t : Bytes} {size : Nat} : {cs : List (Nat × Int)} → {dest b : Bytes} →
    gather t size dest cs = .ok b → ∀ c ∈ cs, 0 ≤ c.2
  | [], _, _, _ => by simp
  | (off, n) :: cs, dest, b, h => by
    unfold gather at h
    split at h
    · cases h
    · rename_i hn
      split at h
      · intro c hc
        cases hc with
        | head => dsimp only; omega
        | tail _ hc => exact gather_nonneg h c hc
      · cases h

/-- Chunks that were taken from a text. -/
theorem chunks_sound : (fuel : Nat) → (pre u : Bytes) → {t' : Bytes} → {cs : List (Nat × Int)} → {n : Nat} →
    chunks fuel (pre ++ u) pre.length = .ok (t', cs, n) → (∀ c ∈ cs, 0 < c.2) →
    ∃ rcs line rest, u = chunksText rcs ++ (line ++ CRLF ++ rest) ∧
      t' = pre ++ (chunksText (rcs.map RawChunk.soft) ++ (soften line ++ CRLF ++ rest)) ∧
      cs = offsets pre.length rcs ∧ n = pre.length + (chunksText rcs ++ (line ++ CRLF)).length ∧
      LooseChunks rcs (line ++ CRLF ++ rest) ∧ LooseSize line rest 0
  | 0, _, _, _, _, _, h, _ => by cases h
  | fuel + 1, pre, u, t', cs, n, h, hpos => by
    unfold chunks at h
    cases hc : crlf u with
    | none =>
      have : crlfFrom (pre ++ u) pre.length = none := by
        unfold crlfFrom
        rw [List.drop_left, hc]
        rfl
      rw [this] at h
      cases h
    | some p =>
      obtain ⟨line, rest⟩ := p
      have hnext : crlfFrom (pre ++ u) pre.length = some (pre.length + line.length + 2) := by
        unfold crlfFrom
        rw [List.drop_left, hc]
        rfl
      have hl := crlf_oneLine hc
      obtain rfl := crlf_some hc
      rw [hnext] at h
      dsimp only at h
      rw [dropParam_line, List.drop_left] at h
      cases hs : scanHex (soften line ++ CRLF ++ rest) with
      | none => rw [hs] at h; cases h
      | some v =>
        rw [hs] at h
        dsimp only at h
        split at h
        · rename_i hv
          subst hv
          cases h
          obtain ⟨z, h1, h2, h3⟩ := scanHex_spec (n := 0) hs
          exact ⟨[], line, rest, rfl, rfl, rfl, by simp [chunksText, CRLF]; omega, trivial, hl, z, h1, h2, h3⟩
        · split at h
          · cases h
          · rename_i hlen
            split at h
            · cases h
            · split at h
              · cases h
              · rename_i hcrlf
                obtain ⟨r, hr, h⟩ := Out.bind_eq_ok.1 h
                obtain ⟨t1, cs1, n1⟩ := r
                cases h
                have hv : 0 < v := hpos (pre.length + line.length + 2, v) (by simp)
                obtain ⟨k, rfl⟩ : ∃ k : Nat, v = k := ⟨v.toNat, by omega⟩
                have hk : ((pre.length + line.length + 2 : Nat) + (k : Int)).toNat = pre.length + line.length + 2 + k := by
                  omega
                rw [hk] at hcrlf hr
                have hlen' : k + 2 ≤ rest.length := by
                  simp only [List.length_append, soften_length, CRLF, List.length_cons, List.length_nil] at hlen
                  omega
                have hidx : ∀ i, (pre ++ (soften line ++ CRLF ++ rest))[pre.length + line.length + 2 + i]? = rest[i]? := by
                  intro i
                  have e : pre ++ (soften line ++ CRLF ++ rest) = (pre ++ (soften line ++ CRLF)) ++ rest := by
                    simp only [List.append_assoc]
                  have e2 : (pre ++ (soften line ++ CRLF)).length = pre.length + line.length + 2 := by
                    simp [CRLF]; omega
                  rw [e, List.getElem?_append_right (by omega), e2]
                  congr 1
                  omega
                rw [hidx, show pre.length + line.length + 2 + k + 1 = pre.length + line.length + 2 + (k + 1) by omega,
                  hidx] at hcrlf
                have hd : ∃ data rest', rest = data ++ CRLF ++ rest' ∧ data.length = k := by
                  refine ⟨rest.take k, rest.drop (k + 2), ?_, by rw [List.length_take]; omega⟩
                  have h1 : rest[k]? = some 0x0D := by
                    by_cases h : rest[k]? = some 0x0D
                    · exact h
                    · exact absurd (.inl h) hcrlf
                  have h2 : rest[k + 1]? = some 0x0A := by
                    by_cases h : rest[k + 1]? = some 0x0A
                    · exact h
                    · exact absurd (.inr h) hcrlf
                  obtain ⟨l1, e1⟩ := List.getElem?_eq_some_iff.1 h1
                  obtain ⟨l2, e2⟩ := List.getElem?_eq_some_iff.1 h2
                  conv => lhs; rw [← List.take_append_drop k rest, List.drop_eq_getElem_cons l1, e1,
                    List.drop_eq_getElem_cons l2, e2]
                  simp [CRLF]
                obtain ⟨data, rest', rfl, rfl⟩ := hd
                have e : pre ++ (soften line ++ CRLF ++ (data ++ CRLF ++ rest')) =
                    (pre ++ (soften line ++ CRLF ++ data ++ CRLF)) ++ rest' := by
                  simp only [List.append_assoc]
                have e2 : pre.length + line.length + 2 + data.length + 2 =
                    (pre ++ (soften line ++ CRLF ++ data ++ CRLF)).length := by
                  simp [CRLF]; omega
                rw [e, e2] at hr
                obtain ⟨rcs, line2, rest2, g1, g2, g3, g4, g5, g6⟩ := chunks_sound fuel _ rest' hr
                  (fun c hc => hpos c (List.mem_cons_of_mem _ hc))
                obtain ⟨z, z1, z2, z3⟩ := scanHex_spec hs
                refine ⟨⟨[], line, data⟩ :: rcs, line2, rest2, ?_, ?_, ?_, ?_, ⟨⟨hl, z, ?_, z2, z3⟩, ?_, g5⟩, g6⟩
                · rw [chunksText_cons, g1]
                  simp only [List.append_assoc, List.nil_append]
                · rw [List.map_cons, chunksText_cons, g2]
                  simp only [RawChunk.soft, List.append_assoc, List.nil_append]
                · rw [g3]
                  simp only [offsets, List.nil_append]
                  rw [← e2]
                · dsimp only
                  rw [g4, chunksText_cons]
                  simp only [List.length_append, soften_length, List.length_nil]
                  omega
                · dsimp only
                  rw [← g1]
                  exact z1
                · dsimp only
                  intro hh
                  rw [hh] at hv
                  exact absurd hv (by simp)

/-- The same lengths at the same places give the same data. -/
theorem same_data : {a b : List RawChunk} → {pos : Nat} → {x y : Bytes} → offsets pos a = offsets pos b →
    chunksText a ++ x = chunksText b ++ y → a.flatMap RawChunk.data = b.flatMap RawChunk.data ∧ x = y ∧
      (chunksText a).length = (chunksText b).length
  | [], [], _, _, _, _, h => ⟨rfl, h, rfl⟩
  | [], _ :: _, _, _, _, h, _ => by simp [offsets] at h
  | _ :: _, [], _, _, _, h, _ => by simp [offsets] at h
  | c :: a, d :: b, pos, x, y, ho, h => by
    simp only [offsets, List.cons.injEq, Prod.mk.injEq] at ho
    obtain ⟨⟨h1, h2⟩, h3⟩ := ho
    have h2 : c.data.length = d.data.length := by omega
    have h1 : (c.digits ++ c.ext).length = (d.digits ++ d.ext).length := by omega
    rw [h1, h2] at h3
    rw [chunksText_cons, chunksText_cons] at h
    simp only [List.append_assoc] at h
    have e : ∀ (c : RawChunk) (u : Bytes), c.digits ++ (c.ext ++ (CRLF ++ (c.data ++ (CRLF ++ u)))) =
        (c.digits ++ c.ext) ++ (CRLF ++ (c.data ++ (CRLF ++ u))) := by
      intro c u; simp only [List.append_assoc]
    rw [e, e] at h
    obtain ⟨-, h⟩ := List.append_inj h h1
    obtain ⟨-, h⟩ := List.append_inj h rfl
    obtain ⟨hd, h⟩ := List.append_inj h h2
    obtain ⟨-, h⟩ := List.append_inj h rfl
    obtain ⟨i1, i2, i3⟩ := same_data h3 h
    refine ⟨?_, i2, ?_⟩
    · rw [List.flatMap_cons, List.flatMap_cons, hd, i1]
    · rw [chunksText_cons, chunksText_cons]
      simp only [List.length_append] at h1 i3 ⊢
      omega

theorem soft_data (cs : List RawChunk) : (cs.map RawChunk.soft).flatMap RawChunk.data = cs.flatMap RawChunk.data := by
  induction cs with
  | nil => rfl
  | cons c cs ih => rw [List.map_cons, List.flatMap_cons, List.flatMap_cons, ih]; rfl

theorem totalLen_sound (cs : List RawChunk) : (pos acc : Nat) → {v : Int} → (acc < 2 ^ 31) →
    totalLen acc (offsets pos cs) = .ok v → v = (acc + (cs.flatMap RawChunk.data).length : Nat) ∧ v < 2 ^ 31 := by
  induction cs with
  | nil =>
    intro pos acc v ha h
    simp only [offsets, totalLen, Out.ok.injEq] at h
    subst h
    exact ⟨by simp, by omega⟩
  | cons c cs ih =>
    intro pos acc v ha h
    simp only [offsets, totalLen] at h
    split at h
    · rename_i hb
      have := ih _ (acc + c.data.length) (v := v) (by omega) (by rw [← h]; rfl)
      rw [List.flatMap_cons, List.length_append]
      refine ⟨?_, this.2⟩
      rw [this.1]
      omega
    · cases h

/-- A chunked body that was taken from a text. -/
theorem parseChunked_sound {s b r : Bytes} {ts : List Header} (h : parseChunked mem s = .ok (b, ts, r)) :
    ∃ cs line trailers, s = chunksText cs ++ (line ++ CRLF ++ (headersText trailers ++ CRLF ++ r)) ∧
      LooseChunks cs (line ++ CRLF ++ (headersText trailers ++ CRLF ++ r)) ∧
      LooseSize line (headersText trailers ++ CRLF ++ r) 0 ∧ LooseHeaders trailers ∧
      ts = trailers.map RawHeader.header ∧ b = cs.flatMap RawChunk.data ∧ b.length + 1 < 2 ^ 31 := by
  unfold parseChunked at h
  obtain ⟨⟨t1, cs1, n1⟩, h1, h⟩ := Out.bind_eq_ok.1 h
  obtain ⟨total, htot, h⟩ := Out.bind_eq_ok.1 h
  split at h
  · cases h
  rename_i hmax
  split at h
  · cases h
  · split at h
    · cases h
    · rename_i hneg
      obtain ⟨⟨t2, cs2, n2⟩, h2, h⟩ := Out.bind_eq_ok.1 h
      obtain ⟨body, hg, h⟩ := Out.bind_eq_ok.1 h
      obtain ⟨⟨hs, r'⟩, hh, h⟩ := Out.bind_eq_ok.1 h
      cases h
      obtain ⟨-, -, -, hsoft⟩ := Soft.chunks _ (Soft.refl s) 0 h1
      obtain ⟨t2', h2', -, -⟩ := Soft.chunks _ hsoft 0 h1
      dsimp only at h2 hg hh htot
      rw [h2] at h2'
      cases h2'
      have hp : ∀ c ∈ cs1, 0 < c.2 := by
        intro c hc
        have := gather_nonneg hg c hc
        have := chunks_nonzero _ h1 c hc
        omega
      obtain ⟨rcs, line, rest, a1, a2, a3, a4, a5, a6⟩ := chunks_sound _ [] s h1 hp
      obtain ⟨rcs2, line2, rest2, b1, b2, b3, b4, -, -⟩ := chunks_sound _ [] t1 h2 hp
      rw [List.nil_append] at a2 b2
      rw [List.length_nil] at a3 b3
      have hd := same_data (a := rcs.map RawChunk.soft) (b := rcs2) (pos := 0)
        (by rw [offsets_soft, ← a3, ← b3]) (a2.symm.trans b1)
      rw [soft_data, soft_length] at hd
      have hll : line.length = line2.length := by
        simp only [List.length_append, List.length_nil] at a4 b4
        omega
      have hrest : rest = rest2 := by
        have := hd.2.1
        rw [List.append_assoc, List.append_assoc] at this
        obtain ⟨-, this⟩ := List.append_inj this (by rw [soften_length]; exact hll)
        exact (List.append_inj this rfl).2
      subst hrest
      have ht := totalLen_sound rcs 0 0 (v := total) (by decide) (by rw [a3] at htot; exact htot)
      have hgo := gather_offsets (rcs2.map RawChunk.soft) (soften line2 ++ CRLF ++ rest) (total.toNat + 1) [] [] (by
        rw [soft_data, ← hd.1, ht.1]
        simp only [List.length_nil, Nat.zero_add]
        omega)
      rw [List.nil_append, ← b2, offsets_soft] at hgo
      rw [b3] at hg
      change gather t2 _ [] (offsets 0 rcs2) = _ at hg
      rw [show ([] : Bytes).length = 0 from rfl, hg] at hgo
      simp only [Out.ok.injEq, List.nil_append] at hgo
      rw [soft_data, ← hd.1] at hgo
      have hdrop : t2.drop n1 = rest := by
        rw [b2, b4]
        have e : chunksText (rcs2.map RawChunk.soft) ++ (soften line2 ++ CRLF ++ rest) =
          (chunksText (rcs2.map RawChunk.soft) ++ (soften line2 ++ CRLF)) ++ rest := by
          simp only [List.append_assoc]
        rw [e]
        apply List.drop_left'
        simp only [List.length_append, soften_length, soft_length, List.length_nil]
        omega
      rw [hdrop] at hh
      obtain ⟨ls, e1, e2, e3⟩ := parseHeaders_sound _ hh
      refine ⟨rcs, line, ls, ?_, ?_, ?_, e2, e3, hgo, ?_⟩
      · rw [a1, e1]
      · rw [← e1]; exact a5
      · rw [← e1]; exact a6
      · rw [hgo]
        have := ht.1
        have := ht.2
        omega

/-! ## Whole messages -/

theorem parseText_sound {s r : Bytes} {m : HMsg} (hl : s.length < 2 ^ 31) (h : parseText mem s = .ok (m, r)) :
    ∃ t : RawMsg, s = t.text ++ r ∧ t.Loose r ∧ t.msg = m := by
  unfold parseText at h
  obtain ⟨⟨⟨a, b, c⟩, s1⟩, h1, h⟩ := Out.bind_eq_ok.1 h
  obtain ⟨⟨hs, s2⟩, h2, h⟩ := Out.bind_eq_ok.1 h
  obtain ⟨e1, p1, p2, p3, p4⟩ := parseStart_sound h1
  obtain ⟨ls, e2, p5, p6⟩ := parseHeaders_sound _ h2
  dsimp only at h e2 p6
  rw [parseBody_eq] at h
  dsimp only at h
  by_cases hc : hs.any isChunked = true
  · rw [if_pos hc] at h
    obtain ⟨⟨body, ts, r'⟩, h3, h⟩ := Out.bind_eq_ok.1 h
    cases h
    obtain ⟨cs, line, trailers, g1, g2, g3, g4, g5, g6, g7⟩ := parseChunked_sound h3
    refine ⟨⟨a, b, c, ls, .chunked cs [] line trailers⟩, ?_, ⟨p1, p2, p3, p4, p5, ?_⟩, ?_⟩
    · rw [e1, e2, g1]
      simp only [RawMsg.text, RawBody.text, List.append_assoc, List.nil_append]
    · refine ⟨?_, g2, g3, g4, g6 ▸ g7⟩
      dsimp only
      rw [← p6, ← any_isChunked]
      exact hc
    · simp only [RawMsg.msg, RawBody.trailers, RawBody.content, List.map_append, p6, g5, g6]
  · rw [if_neg hc] at h
    have hc' : ¬ SaysChunked (ls.map RawHeader.header) := by
      rw [← p6, ← any_isChunked]
      exact hc
    split at h
    · rename_i hn
      split at h
      · cases h
      · rename_i hle
        split at h
        · cases h
          have hlen : contentLen hs < 2 ^ 31 := by
            have := congrArg List.length e1
            have := congrArg List.length e2
            simp only [List.length_append] at *
            omega
          refine ⟨⟨a, b, c, ls, .plain (s2.take (contentLen hs))⟩, ?_, ⟨p1, p2, p3, p4, p5, hc', ?_, ?_⟩, ?_⟩
          · rw [e1, e2]
            simp only [RawMsg.text, RawBody.text, List.append_assoc, List.take_append_drop]
          · intro e
            have := congrArg List.length e
            rw [List.length_take, List.length_nil] at this
            omega
          · rw [List.length_take, Nat.min_eq_left (by omega)]
            dsimp only
            rw [← p6]
            exact announces_of hlen
          · simp only [RawMsg.msg, RawBody.trailers, RawBody.content, List.append_nil, p6]
        · cases h
    · rename_i hn
      cases h
      refine ⟨⟨a, b, c, ls, .none⟩, ?_, ⟨p1, p2, p3, p4, p5, hc', ?_⟩, ?_⟩
      · rw [e1, e2]
        simp only [RawMsg.text, RawBody.text, List.append_assoc, List.append_nil]
      · dsimp only
        have hz : contentLen hs = 0 := Classical.byContradiction hn
        have := announces_of (hs := hs) (by rw [hz]; decide)
        rw [hz, p6] at this
        exact this
      · simp only [RawMsg.msg, RawBody.trailers, RawBody.content, List.append_nil, p6]

/-! ## Texts that are accepted -/

theorem hexadecimal_line (l : Bytes) (u v : Bytes) : (acc : Nat) →
    hexadecimal acc (l ++ CRLF ++ u) = hexadecimal acc (l ++ CRLF ++ v) := by
  induction l with
  | nil => intro acc; rfl
  | cons c l ih =>
    intro acc
    simp only [List.cons_append, hexadecimal, ih]

theorem scanDigits_zero (c : Byte) (t : Bytes) : scanDigits (0x30 :: c :: t) =
    if c = 0x78 ∨ c = 0x58 then some (hexadecimal 0 t) else some (hexadecimal 0 (0x30 :: c :: t)) := rfl

theorem scanDigits_other {c : Byte} (hc : c ≠ 0x30) (t : Bytes) : scanDigits (c :: t) =
    if isHex c then some (hexadecimal 0 (c :: t)) else none := by
  unfold scanDigits
  split
  · rename_i h; cases h; exact absurd rfl hc
  · rename_i h; cases h; rfl
  · rename_i h; cases h

theorem scanDigits_line : (l : Bytes) → (u v : Bytes) → scanDigits (l ++ CRLF ++ u) = scanDigits (l ++ CRLF ++ v)
  | [], _, _ => rfl
  | [c], u, v => by
    have h := hexadecimal_line [c] u v 0
    simp only [List.cons_append, List.nil_append, CRLF] at h ⊢
    by_cases hc : c = 0x30
    · subst hc
      rw [scanDigits_zero, scanDigits_zero, h, if_neg (by decide), if_neg (by decide)]
    · rw [scanDigits_other hc, scanDigits_other hc, h]
  | c :: d :: l, u, v => by
    have h := hexadecimal_line (c :: d :: l) u v 0
    have h' := hexadecimal_line l u v 0
    simp only [List.cons_append] at h ⊢
    by_cases hc : c = 0x30
    · subst hc
      rw [scanDigits_zero, scanDigits_zero, h, h']
    · rw [scanDigits_other hc, scanDigits_other hc, h]

theorem scanHex_line {l : Bytes} (h : ∃ c ∈ l, isSpace c = false) (u v : Bytes) :
    scanHex (l ++ CRLF ++ u) = scanHex (l ++ CRLF ++ v) := by
  have hd : ∃ c l', ∀ u, (l ++ CRLF ++ u).dropWhile isSpace = c :: l' ++ CRLF ++ u := by
    obtain ⟨c, hc, hs⟩ := h
    induction l with
    | nil => cases hc
    | cons x l ih =>
      by_cases hx : isSpace x = true
      · have : c ∈ l := by
          cases hc with
          | head => rw [hx] at hs; cases hs
          | tail _ h => exact h
        obtain ⟨d, l', e⟩ := ih this
        refine ⟨d, l', fun u => ?_⟩
        rw [List.cons_append, List.cons_append, List.dropWhile_cons_of_pos hx, e]
      · refine ⟨x, l, fun u => ?_⟩
        rw [List.cons_append, List.cons_append, List.dropWhile_cons_of_neg hx]
  obtain ⟨c, l', e⟩ := hd
  have h1 := scanDigits_line l' u v
  have h2 := scanDigits_line (c :: l') u v
  have hs : ∃ neg q, scanDigits (q ++ CRLF ++ u) = scanDigits (q ++ CRLF ++ v) ∧
      ∀ u, sign (c :: l' ++ CRLF ++ u) = (neg, q ++ CRLF ++ u) := by
    by_cases g1 : c = 0x2D
    · subst g1
      exact ⟨true, l', h1, fun u => rfl⟩
    · by_cases g2 : c = 0x2B
      · subst g2
        exact ⟨false, l', h1, fun u => rfl⟩
      · refine ⟨false, c :: l', h2, fun u => ?_⟩
        rw [List.cons_append, List.cons_append]
        unfold sign
        dsimp only
        rw [if_neg g1, if_neg g2]
  obtain ⟨neg, q, h3, h4⟩ := hs
  unfold scanHex
  rw [e, e, h4, h4]
  dsimp only
  rw [h3]

/-- A line that gives the length `n`, whatever follows. -/
def Sized (line : Bytes) (n : Nat) : Prop := OneLine line ∧ ∀ u, scanHex (soften line ++ CRLF ++ u) = some (n : Int)

theorem sized_of {line more : Bytes} {n : Nat} (h : LooseSize line more n) (hw : Written line) : Sized line n := by
  obtain ⟨h1, z, h2, h3, h4⟩ := h
  refine ⟨h1, fun u => ?_⟩
  rw [scanHex_line hw u more]
  exact scanHex_of h2 h3 h4

theorem chunks_sized {rcs : List RawChunk} (hw : ∀ c ∈ rcs, Sized (c.digits ++ c.ext) c.data.length ∧ c.data ≠ [])
    {line rest : Bytes} (hl : Sized line 0) : (pre : Bytes) → (fuel : Nat) → (rcs.length < fuel) →
    ∃ t', chunks fuel (pre ++ (chunksText rcs ++ (line ++ CRLF ++ rest))) pre.length =
      .ok (t', offsets pre.length rcs, pre.length + (chunksText rcs ++ (line ++ CRLF)).length) := by
  induction rcs with
  | nil =>
    intro pre fuel hf
    obtain ⟨f, rfl⟩ : ∃ f, fuel = f + 1 := ⟨fuel - 1, by simp at hf; omega⟩
    have hnext : crlfFrom (pre ++ (line ++ CRLF ++ rest)) pre.length = some (pre.length + line.length + 2) := by
      unfold crlfFrom
      rw [List.drop_left, crlf_first hl.1]
      rfl
    refine ⟨pre ++ (soften line ++ CRLF ++ rest), ?_⟩
    unfold chunks
    rw [show chunksText [] = [] from rfl, List.nil_append, List.nil_append, hnext]
    dsimp only
    rw [dropParam_line, List.drop_left, hl.2]
    dsimp only
    rw [if_pos (show ((0 : Nat) : Int) = 0 from rfl)]
    simp only [offsets, Out.ok.injEq, Prod.mk.injEq, true_and, List.length_append, CRLF, List.length_cons, List.length_nil]
    omega
  | cons c rcs ih =>
    intro pre fuel hf
    obtain ⟨f, rfl⟩ : ∃ f, fuel = f + 1 := ⟨fuel - 1, by simp at hf; omega⟩
    obtain ⟨hs, hd⟩ := hw c (by simp)
    have e0 : pre ++ (chunksText (c :: rcs) ++ (line ++ CRLF ++ rest)) = pre ++ ((c.digits ++ c.ext) ++ CRLF ++
        (c.data ++ CRLF ++ (chunksText rcs ++ (line ++ CRLF ++ rest)))) := by
      rw [chunksText_cons]
      simp only [List.append_assoc]
    generalize hlin : c.digits ++ c.ext = l1 at *
    generalize hu : chunksText rcs ++ (line ++ CRLF ++ rest) = u at *
    have hnext : crlfFrom (pre ++ (l1 ++ CRLF ++ (c.data ++ CRLF ++ u))) pre.length =
        some (pre.length + l1.length + 2) := by
      unfold crlfFrom
      rw [List.drop_left, crlf_first hs.1]
      rfl
    have hk : ((pre.length + l1.length + 2 : Nat) + (c.data.length : Int)).toNat =
        pre.length + l1.length + 2 + c.data.length := by
      omega
    have hd' : c.data.length ≠ 0 := fun h => hd (List.eq_nil_of_length_eq_zero h)
    have e : pre ++ (soften l1 ++ CRLF ++ (c.data ++ CRLF ++ u)) =
        (pre ++ (soften l1 ++ CRLF ++ c.data ++ CRLF)) ++ u := by
      simp only [List.append_assoc]
    have e2 : pre.length + l1.length + 2 + c.data.length + 2 = (pre ++ (soften l1 ++ CRLF ++ c.data ++ CRLF)).length := by
      simp [CRLF]; omega
    have hidx : ∀ i x, CRLF[i]? = some x →
        (pre ++ (soften l1 ++ CRLF ++ (c.data ++ CRLF ++ u)))[pre.length + l1.length + 2 + c.data.length + i]? = some x := by
      intro i x hx
      have e3 : pre ++ (soften l1 ++ CRLF ++ (c.data ++ CRLF ++ u)) = (pre ++ (soften l1 ++ CRLF ++ c.data)) ++ (CRLF ++ u) := by
        simp only [List.append_assoc]
      have e4 : (pre ++ (soften l1 ++ CRLF ++ c.data)).length = pre.length + l1.length + 2 + c.data.length := by
        simp [CRLF]; omega
      have hi : i < CRLF.length := (List.getElem?_eq_some_iff.1 hx).1
      rw [e3, List.getElem?_append_right (by omega), e4, Nat.add_sub_cancel_left, List.getElem?_append_left hi, hx]
    obtain ⟨t', ih⟩ := ih (fun x hx => hw x (List.mem_cons_of_mem _ hx)) (pre ++ (soften l1 ++ CRLF ++ c.data ++ CRLF)) f
      (by simp at hf; omega)
    refine ⟨t', ?_⟩
    rw [e0]
    unfold chunks
    rw [hnext]
    dsimp only
    rw [dropParam_line, List.drop_left, hs.2]
    dsimp only
    rw [if_neg (by omega), if_neg, if_neg (by omega), hk, if_neg, e, e2, ih, Out.bind_ok]
    · simp only [offsets, Out.pure_eq, Out.ok.injEq, Prod.mk.injEq, true_and]
      rw [hlin, ← e2]
      refine ⟨rfl, ?_⟩
      rw [chunksText_cons, ← hlin]
      simp only [List.length_append, CRLF, List.length_cons, List.length_nil]
      omega
    · rintro (h | h)
      · exact h (hidx 0 _ rfl)
      · exact h (hidx 1 _ rfl)
    · rw [e, List.length_append, ← e2]
      omega

theorem second_pass {s t1 : Bytes} {cs : List (Nat × Int)} {f n : Nat} (h1 : chunks f s 0 = .ok (t1, cs, n))
    (hp : ∀ c ∈ cs, 0 < c.2) : ∃ rcs line rest t2, s = chunksText rcs ++ (line ++ CRLF ++ rest) ∧ cs = offsets 0 rcs ∧
      n = (chunksText rcs ++ (line ++ CRLF)).length ∧ chunks f t1 0 = .ok (t2, cs, n) ∧ t2.drop n = rest ∧
      ∀ size, (rcs.flatMap RawChunk.data).length ≤ size → gather t2 size [] cs = .ok (rcs.flatMap RawChunk.data) := by
  obtain ⟨-, -, -, hsoft⟩ := Soft.chunks _ (Soft.refl s) 0 h1
  obtain ⟨t2, h2, -, -⟩ := Soft.chunks _ hsoft 0 h1
  obtain ⟨rcs, line, rest, a1, a2, a3, a4, a5, a6⟩ := chunks_sound _ [] s h1 hp
  obtain ⟨rcs2, line2, rest2, b1, b2, b3, b4, -, -⟩ := chunks_sound _ [] t1 h2 hp
  rw [List.nil_append] at a2 b2
  rw [List.length_nil] at a3 b3
  have hd := same_data (a := rcs.map RawChunk.soft) (b := rcs2) (pos := 0)
    (by rw [offsets_soft, ← a3, ← b3]) (a2.symm.trans b1)
  rw [soft_data, soft_length] at hd
  have hll : line.length = line2.length := by
    simp only [List.length_append, List.length_nil] at a4 b4
    omega
  have hrest : rest = rest2 := by
    have := hd.2.1
    rw [List.append_assoc, List.append_assoc] at this
    obtain ⟨-, this⟩ := List.append_inj this (by rw [soften_length]; exact hll)
    exact (List.append_inj this rfl).2
  subst hrest
  refine ⟨rcs, line, rest, t2, a1, a3, by simpa using a4, h2, ?_, ?_⟩
  · rw [b2, b4]
    have e : chunksText (rcs2.map RawChunk.soft) ++ (soften line2 ++ CRLF ++ rest) =
      (chunksText (rcs2.map RawChunk.soft) ++ (soften line2 ++ CRLF)) ++ rest := by
      simp only [List.append_assoc]
    rw [e]
    apply List.drop_left'
    simp only [List.length_append, soften_length, soft_length, List.length_nil]
    omega
  · intro size hs
    have hgo := gather_offsets (rcs2.map RawChunk.soft) (soften line2 ++ CRLF ++ rest) size [] [] (by
      rw [soft_data, ← hd.1]
      simpa using hs)
    rw [List.nil_append, ← b2, offsets_soft, List.length_nil, ← b3, soft_data, ← hd.1] at hgo
    exact hgo

theorem parseChunked_loose (hm : ∀ n, mem n = true) {cs : List RawChunk}
    (hw : ∀ c ∈ cs, Sized (c.digits ++ c.ext) c.data.length ∧ c.data ≠ []) {line : Bytes} (hl : Sized line 0)
    (hsum : (cs.flatMap RawChunk.data).length + 1 < 2 ^ 31) {ts : List RawHeader} (ht : LooseHeaders ts) (more : Bytes) :
    parseChunked mem (chunksText cs ++ (line ++ CRLF ++ (headersText ts ++ CRLF ++ more))) =
      .ok (cs.flatMap RawChunk.data, ts.map RawHeader.header, more) := by
  generalize hrest : headersText ts ++ CRLF ++ more = rest
  have hf : cs.length < (chunksText cs ++ (line ++ CRLF ++ rest)).length + 1 := by
    have := length_chunksText cs
    rw [List.length_append]
    omega
  have hf2 : ts.length < (chunksText cs ++ (line ++ CRLF ++ rest)).length + 1 := by
    have := length_headersText ts
    rw [← hrest]
    simp only [List.length_append]
    omega
  obtain ⟨t1, h1⟩ := chunks_sized (rest := rest) hw hl [] _ hf
  rw [List.nil_append, List.length_nil, Nat.zero_add] at h1
  have hp : ∀ c ∈ offsets 0 cs, 0 < c.2 := by
    have : ∀ (cs : List RawChunk) pos, (∀ c ∈ cs, c.data ≠ []) → ∀ c ∈ offsets pos cs, 0 < c.2 := by
      intro cs
      induction cs with
      | nil => intro pos _ c hc; cases hc
      | cons x cs ih =>
        intro pos h c hc
        simp only [offsets, List.mem_cons] at hc
        rcases hc with rfl | hc
        · have : x.data.length ≠ 0 := fun e => h x (by simp) (List.eq_nil_of_length_eq_zero e)
          dsimp only
          omega
        · exact ih _ (fun y hy => h y (List.mem_cons_of_mem _ hy)) c hc
    exact this cs 0 (fun c hc => (hw c hc).2)
  obtain ⟨rcs, line2, rest2, t2, a1, a2, a3, a4, a5, a6⟩ := second_pass h1 hp
  have hd := same_data (a := cs) (b := rcs) (pos := 0) a2 a1
  have hll : line.length = line2.length := by
    simp only [List.length_append] at a3
    omega
  have hr : rest = rest2 := by
    have := hd.2.1
    rw [List.append_assoc, List.append_assoc] at this
    obtain ⟨-, this⟩ := List.append_inj this hll
    exact (List.append_inj this rfl).2
  subst hr
  unfold parseChunked
  rw [h1, Out.bind_ok]
  have htot := totalLen_offsets cs 0 0 (by omega)
  rw [Nat.zero_add] at htot
  change totalLen 0 (offsets 0 cs) = _ at htot
  dsimp only
  rw [htot, Out.bind_ok, if_neg (by omega), hm, if_neg (by simp), if_neg (by omega), a4, Out.bind_ok]
  dsimp only
  rw [a6 _ (by rw [← hd.1]; omega), Out.bind_ok, a5, ← hrest, parseHeaders_loose hm ht more _ (by rw [hrest]; exact hf2),
    Out.bind_ok, hd.1]
  rfl

theorem looseChunks_sized : {cs : List RawChunk} → {more : Bytes} → LooseChunks cs more →
    (∀ c ∈ cs, Written (c.digits ++ c.ext)) → ∀ c ∈ cs, Sized (c.digits ++ c.ext) c.data.length ∧ c.data ≠ []
  | [], _, _, _ => by simp
  | c :: cs, more, h, hw => by
    intro x hx
    cases hx with
    | head => exact ⟨sized_of h.1 (hw c (by simp)), h.2.1⟩
    | tail _ hx => exact looseChunks_sized h.2.2 (fun y hy => hw y (List.mem_cons_of_mem _ hy)) x hx

theorem parseText_loose (hm : ∀ n, mem n = true) {t : RawMsg} {r : Bytes} (h : t.Loose r) (hw : t.body.Written)
    (more : Bytes) : parseText mem (t.text ++ more) = .ok (t.msg, more) := by
  have e : t.text ++ more = t.start0 ++ str " " ++ t.start1 ++ str " " ++ t.start2 ++ CRLF ++
      (headersText t.headers ++ CRLF ++ (t.body.text ++ more)) := by
    simp only [RawMsg.text, List.append_assoc]
  unfold parseText
  rw [e, parseStart_loose hm h.start0 h.start1 h.start2 h.line, Out.bind_ok]
  dsimp only
  rw [parseHeaders_loose hm h.headers _ _ (by
    have := length_headersText t.headers
    simp only [List.length_append]
    omega), Out.bind_ok]
  dsimp only
  have hb := h.body
  rw [parseBody_eq]
  dsimp only
  cases hbody : t.body with
  | none =>
    rw [hbody] at hb
    have hc := contentLen_of hb.2
    rw [if_neg (fun hh => hb.1 ((any_isChunked _).1 hh)), if_neg (by rw [hc]; simp)]
    simp only [RawMsg.msg, hbody, RawBody.trailers, RawBody.content, RawBody.text, List.append_nil, List.nil_append]
  | plain b =>
    rw [hbody] at hb
    have hc := contentLen_of hb.2.2
    have hne : b.length ≠ 0 := fun hh => hb.2.1 (List.eq_nil_of_length_eq_zero hh)
    rw [if_neg (fun hh => hb.1 ((any_isChunked _).1 hh)), hc, if_pos hne]
    rw [show (RawBody.plain b).text = b from rfl]
    rw [if_neg (by rw [List.length_append]; omega), hm, if_pos rfl]
    simp only [RawMsg.msg, hbody, RawBody.trailers, RawBody.content, List.append_nil, List.take_left, List.drop_left]
  | chunked cs digits ext ts =>
    rw [hbody] at hb hw
    obtain ⟨h1, h2, h3, h4, h5⟩ := hb
    rw [if_pos ((any_isChunked _).2 h1)]
    have e2 : (RawBody.chunked cs digits ext ts).text ++ more =
        chunksText cs ++ ((digits ++ ext) ++ CRLF ++ (headersText ts ++ CRLF ++ more)) := by
      simp only [RawBody.text, List.append_assoc]
    rw [e2, parseChunked_loose hm (looseChunks_sized h2 hw.1) (sized_of h3 hw.2) h5 h4, Out.bind_ok]
    simp only [RawMsg.msg, hbody, RawBody.trailers, RawBody.content, List.map_append, Out.pure_eq]

end FreeCoAP.Http
