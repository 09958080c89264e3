import Verif.Param.Lemmas

/-! # Parameters of the proxy: C88, and the log: C89 -/

namespace FreeCoAP.Param

open FreeCoAP.Config (Setting lookup Reads get parse Unfinished)

/-! ## C88 -/

/-- What a user expects: reading the parameters is safe, and when it succeeds the whole file is a configuration and the parameters are
those in it. -/
def C88_statement : Prop := ∀ (max : Nat) (mem : Nat → Bool) (f : File),
  create max mem f ≠ .ub ∧
  ∀ c, create max mem f = .ok c → c.ok = true → ∃ text as, Contains f text ∧ Reads text as ∧ Follows as c.param

/-- C88. When the parameters are read, the file, up to the first NUL in it, is a configuration, and each parameter has the value set
last in its section, or the default; the log level has one of the five names. Missing from the full claim: a file with a NUL is
accepted, and what comes after it is ignored. -/
theorem C88_values_partial {max : Nat} {mem : Nat → Bool} {f : File} {c : Created} (h : create max mem f = .ok c) (hok : c.ok = true) :
    ∃ text as, Contains f text ∧ Reads (cstr text) as ∧ Follows as c.param := by
  unfold create at h
  split at h
  · cases h
  · cases h
  · cases h; cases hok
  · rename_i text hl
    split at h
    · cases h
    · cases h; cases hok
    · rename_i hp
      cases h
      obtain ⟨as, h1, h2⟩ := Config.C48_get hp
      refine ⟨text, as, load_ok hl, h1, ?_⟩
      have hst : ∀ sec n, get (parse mem [] (cstr text)).store sec n = lookup as sec n := by
        intro sec n
        rw [h2]
        have : get [] sec n = none := rfl
        rw [this]
        cases lookup as sec n <;> rfl
      unfold finish at hok ⊢
      split at hok
      · rename_i hf
        rw [if_pos hf]
        exact fill_ok hst hf
      · cases hok

/-- C88. A file without NULs is a configuration as a whole. -/
theorem C88_values_nul {max : Nat} {mem : Nat → Bool} {f : File} {c : Created} (h : create max mem f = .ok c) (hok : c.ok = true)
    (hn : (0 : Byte) ∉ f.data) : ∃ text as, Contains f text ∧ Reads text as ∧ Follows as c.param := by
  obtain ⟨text, as, h1, h2, h3⟩ := C88_values_partial h hok
  have : cstr text = text := by
    unfold cstr
    rw [← List.takeWhile_append_dropWhile (p := (· ≠ 0)) (l := text)]
    have hall : ∀ x ∈ text, decide (x ≠ 0) = true := by
      intro x hx
      rw [decide_eq_true_eq]
      rintro rfl
      rw [← h1.2.2] at hx
      exact hn (List.mem_of_mem_take hx)
    rw [List.takeWhile_append_dropWhile]
    clear h1 h2
    induction text with
    | nil => rfl
    | cons x xs ih =>
      rw [List.takeWhile_cons, if_pos (hall x (by simp)), ih (fun y hy => hall y (by simp [hy]))]
  rw [this] at h2
  exact ⟨text, as, h1, h2, h3⟩

/-- C88. With enough memory every file that can be read, is a configuration and has a log level that exists is accepted. -/
theorem C88_complete {max : Nat} {mem : Nat → Bool} (hm : ∀ n, mem n = true) {f : File} {text : Bytes} {as : List Setting}
    (hf : Contains f text) (hl : text.length < max) (hr : Reads (cstr text) as) (hlev : value as "" "log_level" "info" ∈ levels) :
    ∃ c, create max mem f = .ok c ∧ c.ok = true ∧ Follows as c.param := by
  have hload : load max mem f = .ok (.ok text) := by
    unfold load
    obtain ⟨h1, h2, h3⟩ := hf
    rw [h1, h2]
    simp only [Bool.true_eq_false, if_false]
    rw [if_neg (by omega), loadInto, if_neg (by rw [hm]; decide), if_neg (by rw [h3]; simp), if_pos (Nat.lt_succ_self _), h3]
  obtain ⟨hp, -⟩ := Config.C48_complete hm [] hr
  obtain ⟨as', h1, h2⟩ := Config.C48_get hp
  have hst : ∀ sec n, get (parse mem [] (cstr text)).store sec n = lookup as sec n := by
    intro sec n
    rw [h2]
    have : get [] sec n = none := rfl
    rw [this, reads_unique h1 hr]
    cases lookup as sec n <;> rfl
  have hk : ∀ sec key dflt, ∃ v, keyVal mem (parse mem [] (cstr text)).store sec key dflt = some v := by
    intro sec key dflt
    unfold keyVal
    rw [if_pos (hm _)]
    exact ⟨_, rfl⟩
  have hll : ∃ l, logLevel (parse mem [] (cstr text)).store = some l := by
    obtain ⟨n, hn, e⟩ := List.mem_iff_getElem.1 hlev
    refine ⟨n, logLevel_iff.2 ⟨n, rfl, ?_⟩⟩
    rw [hst, List.getElem?_eq_getElem hn, e]
    rfl
  have hfill : (fill mem (parse mem [] (cstr text)).store).2 = true := by
    unfold fill
    obtain ⟨v1, e1⟩ := hk [] (str "port") (str "4430")
    obtain ⟨v2, e2⟩ := hk (str "http_server") (str "key_file") (str "http_server_privkey.pem")
    obtain ⟨v3, e3⟩ := hk (str "http_server") (str "cert_file") (str "http_server_cert.pem")
    obtain ⟨v4, e4⟩ := hk (str "http_server") (str "trust_file") (str "http_server_trust.pem")
    obtain ⟨v5, e5⟩ := hk (str "coap_client") (str "key_file") (str "coap_client_privkey.pem")
    obtain ⟨v6, e6⟩ := hk (str "coap_client") (str "cert_file") (str "coap_client_cert.pem")
    obtain ⟨v7, e7⟩ := hk (str "coap_client") (str "trust_file") (str "coap_client_trust.pem")
    obtain ⟨l, el⟩ := hll
    rw [e1, el, e2, e3, e4, e5, e6, e7]
  refine ⟨finish (fill mem (parse mem [] (cstr text)).store).1 true, ?_, rfl, fill_ok hst hfill⟩
  unfold create
  rw [hload]
  simp only
  rw [hp, hfill]

/-- C88. Reading the parameters is safe unless the last line of the file is a setting or a heading without a line break after it, or
the length of the file is the greatest value of `long`. -/
theorem C88_safe_partial {max : Nat} {mem : Nat → Bool} {f : File} (h : create max mem f = .ub) :
    (∃ n, f.len = some n ∧ max ≤ n) ∨ ∃ text, Contains f text ∧ Unfinished (cstr text) := by
  unfold create at h
  split at h
  · rename_i hl
    left
    unfold load at hl
    split at hl
    · cases hl
    split at hl
    · cases hl
    · rename_i n hn
      split at hl
      · rename_i hge; exact ⟨n, hn, hge⟩
      unfold loadInto at hl
      split at hl
      · cases hl
      split at hl
      · cases hl
      rw [if_pos (Nat.lt_succ_self n)] at hl
      cases hl
  · cases h
  · cases h
  · rename_i text hl
    split at h
    · rename_i hp
      exact Or.inr ⟨text, load_ok hl, Config.C48_outside.1 hp⟩
    · cases h
    · cases h

/-- C88. If reading the parameters fails, everything allocated for them has been freed and they are empty; if it succeeds, nothing has been
freed, and `param_destroy` frees everything. -/
theorem C88_released {max : Nat} {mem : Nat → Bool} {f : File} {c : Created} (h : create max mem f = .ok c) :
    (c.freed ++ (destroy c.param).2).Perm c.made ∧ (destroy c.param).1 = Param.zero ∧ (c.ok = false → c.param = Param.zero ∧ c.freed.Perm c.made) := by
  have hd : ∀ p : Param, (destroy p).2 = p.strings.reverse := by
    intro p
    unfold destroy Param.strings
    rw [← List.filterMap_reverse]
    rfl
  have hf : ∀ (p : Param) (b : Bool), ((finish p b).freed ++ (destroy (finish p b).param).2).Perm (finish p b).made ∧
      ((finish p b).ok = false → (finish p b).param = Param.zero ∧ (finish p b).freed.Perm (finish p b).made) := by
    intro p b
    cases b with
    | true =>
      refine ⟨?_, fun h => by cases h⟩
      show ([] ++ (destroy p).2).Perm p.strings
      rw [hd, List.nil_append]
      exact List.reverse_perm _
    | false =>
      refine ⟨?_, fun _ => ⟨rfl, ?_⟩⟩
      · show ((destroy p).2 ++ (destroy Param.zero).2).Perm p.strings
        rw [hd, hd]
        show (p.strings.reverse ++ []).Perm p.strings
        rw [List.append_nil]
        exact List.reverse_perm _
      · show (destroy p).2.Perm p.strings
        rw [hd]
        exact List.reverse_perm _
  unfold create at h
  split at h
  · cases h
  · cases h
  · cases h; exact ⟨(hf _ _).1, rfl, (hf _ _).2⟩
  · split at h
    · cases h
    · cases h; exact ⟨(hf _ _).1, rfl, (hf _ _).2⟩
    · cases h; exact ⟨(hf _ _).1, rfl, (hf _ _).2⟩

/-- A file that can be read. -/
def file (text : Bytes) : File := ⟨true, some text.length, text⟩

/-- A file without a line break at its end makes the proxy read outside of the text. -/
theorem C88_violated_safe : create (2 ^ 63 - 1) (fun _ => true) (file (str "port=80")) = .ub := by decide +kernel

/-- So does a file whose length is given as the greatest `long`, as that of a directory may be. -/
theorem C88_violated_length : create (2 ^ 63 - 1) (fun _ => true) ⟨true, some (2 ^ 63 - 1), []⟩ = .ub := by decide +kernel

/-- A setting after a NUL is ignored. -/
theorem C88_violated_nul : ∃ c, create (2 ^ 63 - 1) (fun _ => true) (file (str "port=80\n" ++ 0 :: str "\nport=81\n")) = .ok c ∧ c.ok = true ∧
    c.param.port = some (str "80") := by
  have : (match create (2 ^ 63 - 1) (fun _ => true) (file (str "port=80\n" ++ 0 :: str "\nport=81\n")) with
    | .ok c => c.ok && decide (c.param.port = some (str "80")) | _ => false) = true := by decide +kernel
  split at this
  · rename_i c hc
    rw [Bool.and_eq_true, decide_eq_true_eq] at this
    exact ⟨c, hc, this⟩
  · cases this

theorem C88_violated : ¬ C88_statement := fun h => (h _ _ _).1 C88_violated_safe

/-- The file of the example. -/
def exText : Bytes := str "port = 8080\nlog_level = warning\n[coap_client]\nkey_file = \"a b.pem\"\n"

example : ∃ as, Reads (cstr exText) as ∧ value as "" "log_level" "info" ∈ levels := by
  obtain ⟨as, h1, h2⟩ := Config.C48_get (mem := fun _ => true) (st := []) (s := cstr exText) (by decide +kernel)
  refine ⟨as, h1, ?_⟩
  have := h2 (str "") (str "log_level")
  have he : get (parse (fun _ => true) [] (cstr exText)).store (str "") (str "log_level") = some (str "warning") := by decide +kernel
  rw [he] at this
  unfold value
  cases hl : lookup as (str "") (str "log_level") with
  | none => rw [hl] at this; cases this
  | some v => rw [hl] at this; cases this; decide

example : ∃ c, create (2 ^ 63 - 1) (fun _ => true) (file exText) = .ok c ∧ c.ok = true ∧ c.param.port = some (str "8080") ∧ c.param.level = 1 ∧
    c.param.clientKey = some (str "a b.pem") ∧ c.param.serverKey = some (str "http_server_privkey.pem") := by
  have : (match create (2 ^ 63 - 1) (fun _ => true) (file exText) with
    | .ok c => c.ok && decide (c.param.port = some (str "8080") ∧ c.param.level = 1 ∧
        c.param.clientKey = some (str "a b.pem") ∧ c.param.serverKey = some (str "http_server_privkey.pem")) | _ => false) = true := by decide +kernel
  split at this
  · rename_i c hc
    rw [Bool.and_eq_true, decide_eq_true_eq] at this
    exact ⟨c, hc, this⟩
  · cases this

/-! ## C89 -/

/-- C89. A message is printed exactly when its severity is at most the level in force, which is the one set last, and the lowest if none
was set; the messages appear in their order. -/
theorem C89_printed (ops : List LogOp) (s : Int) (t : Bytes) :
    logRun ERROR (ops ++ [.log s t]) = logRun ERROR ops ++ if s ≤ levelAfter ops then [(s, t)] else [] := by
  rw [logRun_log, cur_levelAfter]

/-- C89. Errors are never filtered. -/
theorem C89_errors (ops : List LogOp) (t : Bytes) : logRun ERROR (ops ++ [.log ERROR t]) = logRun ERROR ops ++ [(ERROR, t)] := by
  rw [C89_printed, if_pos (show ERROR ≤ levelAfter ops from levelAfter_nonneg ops)]

/-- C89. The level of the proxy is the one whose name is in the file: it prints exactly the messages of this and of higher severity. -/
theorem C89_proxy {max : Nat} {mem : Nat → Bool} {f : File} {c : Created} (h : create max mem f = .ok c) (hok : c.ok = true) :
    ∃ text as, ∃ n : Nat, Contains f text ∧ Reads (cstr text) as ∧ levels[n]? = some (value as "" "log_level" "info") ∧
      ∀ s : Int, prints s (mainLevel c.param) = true ↔ s ≤ n := by
  obtain ⟨text, as, h1, h2, h3⟩ := C88_values_partial h hok
  obtain ⟨n, e1, e2⟩ := h3.level
  refine ⟨text, as, n, h1, h2, e2, fun s => ?_⟩
  have hn : n < 5 := by
    have := List.getElem?_eq_some_iff.1 e2
    exact this.1
  unfold mainLevel prints
  rw [setLevel_eq, e1, if_pos (by omega), decide_eq_true_eq]

example : logRun ERROR [.log WARN [1], .log ERROR [2], .set INFO, .log WARN [3], .log DEBUG [4], .set 7, .log WARN [5]] =
    [(ERROR, [2]), (WARN, [3])] := by decide

end FreeCoAP.Param
