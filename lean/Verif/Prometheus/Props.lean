import Verif.Prometheus.Model
/-!
# Prometheus: legal names (C60) and the exposition (C73)
-/

namespace Otel.Prom
open Rust Metrics

variable {N : Type}

/-! ## Specification: `[a-zA-Z_:][a-zA-Z0-9_:]*` and `[a-zA-Z_][a-zA-Z0-9_]*` -/

/-- A character that may start a metric name. -/
def NameStart (c : Char) : Prop := Alpha c ∨ c = '_' ∨ c = ':'
/-- A character of a metric name. -/
def NameChar (c : Char) : Prop := NameStart c ∨ Digit c
/-- A legal metric name. -/
def LegalName (s : Str) : Prop := ∃ c t, s = c :: t ∧ NameStart c ∧ ∀ d ∈ t, NameChar d
/-- A legal label name. -/
def LegalLabel (s : Str) : Prop := ∃ c t, s = c :: t ∧ (Alpha c ∨ c = '_') ∧ ∀ d ∈ t, Alpha d ∨ Digit d ∨ d = '_'

/-! ## Lemmas on characters -/

theorem alnum_iff (c : Char) : isAsciiAlphanumeric c = true ↔ Alpha c ∨ Digit c := by
  rw [isAsciiAlphanumeric, Bool.or_eq_true, alphabetic_iff, digit_iff]

theorem keep_iff (c : Char) : keep c = true ↔ NameChar c := by
  unfold keep NameChar NameStart
  simp only [Bool.or_eq_true, alnum_iff, beq_iff_eq]
  constructor
  · rintro (((h | h) | h) | h)
    · exact .inl (.inl h)
    · exact .inr h
    · exact .inl (.inr (.inl h))
    · exact .inl (.inr (.inr h))
  · rintro ((h | h | h) | h)
    · exact .inl (.inl (.inl h))
    · exact .inl (.inr h)
    · exact .inr h
    · exact .inl (.inl (.inr h))

theorem nameChar_ascii' {c : Char} (h : NameChar c) : isAscii c = true := by
  unfold isAscii
  rcases h with (h | rfl | rfl) | h
  · rcases h with h | h <;> (simp only [decide_eq_true_eq]; omega)
  · rfl
  · rfl
  · simp only [decide_eq_true_eq]; have := h.2; omega

theorem keep_pass (A : Alnum) {c : Char} (h : keep c = true) : pass A c = true := by
  have ha := nameChar_ascii' ((keep_iff c).1 h)
  unfold keep at h; unfold pass
  rw [A.ascii c ha]; exact h

theorem pass_keep (A : Alnum) {c : Char} (ha : isAscii c = true) (h : pass A c = true) : keep c = true := by
  unfold pass at h; unfold keep
  rw [A.ascii c ha] at h; exact h

theorem fix_chars (s : Str) : ∀ c ∈ fix s, NameChar c := by
  intro c hc
  obtain ⟨d, _, rfl⟩ := List.mem_map.1 hc
  split
  · rename_i h; exact (keep_iff d).1 h
  · exact .inl (.inr (.inl rfl))

theorem digit_not_start {c : Char} (h : NameChar c) (hd : isAsciiDigit c = false) : NameStart c := by
  rcases h with h | h
  · exact h
  · rw [(digit_iff c).2 h] at hd; cases hd

theorem takeWhile_all {α : Type} {p : α → Bool} {l : List α} (h : ∀ a ∈ l, p a = true) : l.takeWhile p = l ∧ l.dropWhile p = [] := by
  induction l with
  | nil => exact ⟨rfl, rfl⟩
  | cons a l ih =>
    have ha := h a List.mem_cons_self
    obtain ⟨h1, h2⟩ := ih fun b hb => h b (List.mem_cons_of_mem _ hb)
    exact ⟨by rw [List.takeWhile_cons, if_pos ha, h1], by rw [List.dropWhile_cons, if_pos ha, h2]⟩

theorem mem_takeWhile {α : Type} {p : α → Bool} {l : List α} {a : α} (h : a ∈ l.takeWhile p) : a ∈ l ∧ p a = true := by
  induction l with
  | nil => cases h
  | cons b l ih =>
    rw [List.takeWhile_cons] at h
    split at h
    · rename_i hb
      rcases List.mem_cons.1 h with rfl | h
      · exact ⟨List.mem_cons_self, hb⟩
      · exact ⟨List.mem_cons_of_mem _ (ih h).1, (ih h).2⟩
    · cases h

/-! ## C60: names -/

/-- C60 (part). Every non-empty ASCII text becomes a legal metric name. Missing: other letters and digits of Unicode before the first invalid
character, which are kept (`sanitize_violated`). -/
theorem sanitize_legal_partial (A : Alnum) (s : Str) (hne : s ≠ []) (ha : ∀ c ∈ s, isAscii c = true) : LegalName (sanitizeName A s) := by
  cases s with
  | nil => exact absurd rfl hne
  | cons c t =>
    unfold sanitizeName
    simp only
    split
    · exact ⟨'_', _, rfl, .inr (.inl rfl), fun d hd => fix_chars _ d hd⟩
    · rename_i hd
      have hall : ∀ d ∈ (c :: t).takeWhile (pass A) ++ fix ((c :: t).dropWhile (pass A)), NameChar d := by
        intro d hd
        rcases List.mem_append.1 hd with h | h
        · obtain ⟨h1, h2⟩ := mem_takeWhile h
          exact (keep_iff d).1 (pass_keep A (ha d h1) h2)
        · exact fix_chars _ d h
      by_cases hp : pass A c = true
      · rw [List.takeWhile_cons, if_pos hp] at hall ⊢
        refine ⟨c, _, rfl, ?_, fun d hd => hall d (List.mem_cons_of_mem _ hd)⟩
        exact digit_not_start (hall c List.mem_cons_self) (by simpa using hd)
      · rw [List.takeWhile_cons, if_neg hp, List.dropWhile_cons, if_neg hp]
        refine ⟨_, fix t, rfl, ?_, fun d hd => fix_chars _ d hd⟩
        have hk : keep c = false := by
          cases hk : keep c with
          | false => rfl
          | true => exact absurd (keep_pass A hk) hp
        show NameStart (if keep c = true then c else '_')
        rw [hk]; exact .inr (.inl rfl)

/-- C60. A legal metric name is left unchanged, also if other names around it need changes: the result depends on the name alone. -/
theorem sanitize_id (A : Alnum) {s : Str} (h : LegalName s) : sanitizeName A s = s := by
  obtain ⟨c, t, rfl, hc, ht⟩ := h
  have hd : isAsciiDigit c = false := by
    cases hd : isAsciiDigit c with
    | false => rfl
    | true =>
      rw [digit_iff] at hd
      rcases hc with (h | h) | rfl | rfl
      · unfold Digit at hd; omega
      · unfold Digit at hd; omega
      · exact absurd hd (by unfold Digit; decide)
      · exact absurd hd (by unfold Digit; decide)
  have hall : ∀ d ∈ c :: t, pass A d = true := by
    intro d hd
    rcases List.mem_cons.1 hd with rfl | hd
    · exact keep_pass A ((keep_iff d).2 (.inl hc))
    · exact keep_pass A ((keep_iff d).2 (ht d hd))
  obtain ⟨h1, h2⟩ := takeWhile_all hall
  unfold sanitizeName
  simp only [hd, Bool.false_eq_true, if_false]
  rw [h1, h2]; exact List.append_nil _

/-- C60. Sanitizing keeps the shape of the name: apart from the prefix of a leading digit, every character stays where it is or becomes
`_`, and no legal character is changed. -/
theorem sanitize_shape (A : Alnum) (s : Str) : ∃ t, (sanitizeName A s = t ∨ sanitizeName A s = '_' :: t) ∧ t.length = s.length ∧
    ∀ p ∈ s.zip t, p.2 = p.1 ∨ (p.2 = '_' ∧ ¬ NameChar p.1) := by
  have hfix : ∀ s : Str, ∀ p ∈ s.zip (fix s), p.2 = p.1 ∨ (p.2 = '_' ∧ ¬ NameChar p.1) := by
    intro s
    induction s with
    | nil => intro p hp; cases hp
    | cons c s ih =>
      intro p hp
      rw [fix, List.map_cons, List.zip_cons_cons] at hp
      rcases List.mem_cons.1 hp with rfl | hp
      · by_cases hk : keep c = true
        · left; show (if keep c = true then c else '_') = c; rw [if_pos hk]
        · right; refine ⟨by show (if keep c = true then c else '_') = '_'; rw [if_neg hk], fun hn => hk ((keep_iff c).2 hn)⟩
      · exact ih p hp
  cases s with
  | nil => exact ⟨[], .inl rfl, rfl, fun p hp => by cases hp⟩
  | cons c t =>
    by_cases hd : isAsciiDigit c = true
    · refine ⟨fix (c :: t), .inr ?_, by simp [fix], hfix _⟩
      show (if isAsciiDigit c = true then _ else _) = _
      rw [if_pos hd]
    · refine ⟨(c :: t).takeWhile (pass A) ++ fix ((c :: t).dropWhile (pass A)), .inl ?_, ?_, ?_⟩
      · show (if isAsciiDigit c = true then _ else _) = _
        rw [if_neg hd]
      · rw [List.length_append, fix, List.length_map, ← List.length_append, List.takeWhile_append_dropWhile]
      · have e : (c :: t) = (c :: t).takeWhile (pass A) ++ (c :: t).dropWhile (pass A) := List.takeWhile_append_dropWhile.symm
        conv => enter [p]; rw [e]
        intro p hp
        rw [show ((c :: t).takeWhile (pass A) ++ (c :: t).dropWhile (pass A)).takeWhile (pass A) = (c :: t).takeWhile (pass A) by rw [← e],
          show ((c :: t).takeWhile (pass A) ++ (c :: t).dropWhile (pass A)).dropWhile (pass A) = (c :: t).dropWhile (pass A) by rw [← e],
          List.zip_append rfl] at hp
        rcases List.mem_append.1 hp with h | h
        · left
          have : ∀ (l : Str), ∀ p ∈ l.zip l, p.2 = p.1 := by
            intro l
            induction l with
            | nil => intro p hp; cases hp
            | cons a l ih =>
              intro p hp
              rcases List.mem_cons.1 hp with rfl | hp
              · rfl
              · exact ih p hp
          exact this _ p h
        · exact hfix _ p h

/-- C60 (finding). A letter outside ASCII is kept, unless an invalid character comes before it. -/
theorem sanitize_violated (A : Alnum) (h : A.is 'é' = true) :
    sanitizeName A "é".toList = "é".toList ∧ ¬ LegalName "é".toList ∧ sanitizeName A ".é".toList = "__".toList := by
  refine ⟨?_, ?_, ?_⟩
  · have : pass A 'é' = true := by simp [pass, h]
    show (if isAsciiDigit 'é' = true then '_' :: fix ['é'] else ['é'].takeWhile (pass A) ++ fix (['é'].dropWhile (pass A))) = _
    rw [if_neg (by decide)]
    simp [List.takeWhile, List.dropWhile, this, fix]
  · rintro ⟨c, t, he, hc, _⟩
    injection he with he _
    subst he
    rcases hc with (h | h) | h | h
    · exact absurd h (by decide)
    · exact absurd h (by decide)
    · cases h
    · cases h
  · have : pass A '.' = false := by
      unfold pass
      rw [A.ascii '.' rfl]; rfl
    show (if isAsciiDigit '.' = true then '_' :: fix ['.', 'é'] else ['.', 'é'].takeWhile (pass A) ++ fix (['.', 'é'].dropWhile (pass A))) = _
    rw [if_neg (by decide)]
    simp only [List.takeWhile, List.dropWhile, this]
    decide

/-- The suffix of a unit is made of lower case letters and `_`. -/
theorem unitSuffix_chars {u sfx : Str} (h : unitSuffix u = some sfx) : ∀ c ∈ sfx, NameChar c := by
  have hp : ∀ k v, Assoc.get promUnits k = some v → ∀ c ∈ v, NameChar c := by
    intro k v hv c hc
    have hm := Assoc.mem_of_get hv
    have : ∀ p ∈ promUnits, ∀ c ∈ p.2, keep c = true := by decide +kernel
    exact (keep_iff c).1 (this _ hm c hc)
  have hq : ∀ k v, Assoc.get promPerUnits k = some v → ∀ c ∈ v, NameChar c := by
    intro k v hv c hc
    have hm := Assoc.mem_of_get hv
    have : ∀ p ∈ promPerUnits, ∀ c ∈ p.2, keep c = true := by decide +kernel
    exact (keep_iff c).1 (this _ hm c hc)
  have hper : ∀ c ∈ "per_".toList, NameChar c := by
    intro c hc
    have : ∀ c ∈ "per_".toList, keep c = true := by decide +kernel
    exact (keep_iff c).1 (this c hc)
  have hper' : ∀ c ∈ "_per_".toList, NameChar c := by
    intro c hc
    have : ∀ c ∈ "_per_".toList, keep c = true := by decide +kernel
    exact (keep_iff c).1 (this c hc)
  unfold unitSuffix at h
  split at h
  · cases h
  · split at h
    · rename_i u' hu
      injection h with h; subst h
      exact hp _ _ hu
    · split at h
      · cases h
      · rename_i first rest _
        split at h
        · rename_i s _ _ hs
          injection h with h; subst h
          intro c hc
          rcases List.mem_append.1 hc with hc | hc
          · exact hper c hc
          · exact hq _ _ hs c hc
        · rename_i s _ _ hs
          injection h with h; subst h
          intro c hc
          rcases List.mem_append.1 hc with hc | hc
          · exact hper c hc
          · exact hq _ _ hs c hc
        · rename_i f s _ hf hs
          injection h with h; subst h
          intro c hc
          rcases List.mem_append.1 hc with hc | hc
          · rcases List.mem_append.1 hc with hc | hc
            · exact hp _ _ hf c hc
            · exact hper' c hc
          · exact hq _ _ hs c hc
        · cases h

theorem legal_append {s t : Str} (hs : LegalName s) (ht : ∀ c ∈ t, NameChar c) : LegalName (s ++ t) := by
  obtain ⟨c, u, rfl, h1, h2⟩ := hs
  exact ⟨c, u ++ t, rfl, h1, fun d hd => (List.mem_append.1 hd).elim (h2 d) (ht d)⟩

theorem legal_chars {s : Str} (hs : LegalName s) : ∀ c ∈ s, NameChar c := by
  obtain ⟨c, u, rfl, h1, h2⟩ := hs
  intro d hd
  rcases List.mem_cons.1 hd with rfl | hd
  · exact .inl h1
  · exact h2 d hd

/-- C60 (part). The name under which an instrument is exported is legal: for every instrument name the API accepts, every unit and every
setting, provided the configured namespace is itself made of legal characters. Missing: namespaces are not checked
(`namespace_violated`). -/
theorem exported_name_legal_partial (cfg : Cfg) (m : Metric N) (hm : ValidName m.name) (hns : ∀ ns, cfg.ns = some ns → LegalName ns)
    {ty : MType} {name : Str} (h : typeAndName cfg m = some (ty, name)) : LegalName name := by
  have hascii : ∀ c ∈ m.name, isAscii c = true := by
    obtain ⟨c, t, he, hc, _, ht⟩ := hm
    intro d hd
    rw [he] at hd
    have : d.toNat < 128 := by
      rcases List.mem_cons.1 hd with rfl | hd
      · exact nameChar_ascii d (.inr (.inr (.inr (.inr (.inl hc)))))
      · exact nameChar_ascii d (ht d hd)
    unfold isAscii; simp only [decide_eq_true_eq]; omega
  have hne : m.name ≠ [] := by obtain ⟨c, t, he, _⟩ := hm; rw [he]; exact nofun
  have hs := sanitize_legal_partial cfg.alnum m.name hne hascii
  have hu : ∀ c ∈ ['_'], NameChar c := by intro c hc; obtain rfl := List.mem_singleton.1 hc; exact .inl (.inr (.inl rfl))
  have hg : LegalName (getName cfg m) := by
    unfold getName
    simp only
    split
    · rename_i ns sfx h1 h2
      have hsfx : ∀ c ∈ sfx, NameChar c := by
        split at h2
        · cases h2
        · exact unitSuffix_chars h2
      exact legal_append (legal_append (legal_append (hns _ h1) (legal_chars hs)) hu) hsfx
    · rename_i ns h1 h2
      exact legal_append (hns _ h1) (legal_chars hs)
    · rename_i sfx h1 h2
      have hsfx : ∀ c ∈ sfx, NameChar c := by
        split at h2
        · cases h2
        · exact unitSuffix_chars h2
      exact legal_append (legal_append hs hu) hsfx
    · exact hs
  have htot : ∀ c ∈ "_total".toList, NameChar c := by
    intro c hc
    have : ∀ c ∈ "_total".toList, keep c = true := by decide +kernel
    exact (keep_iff c).1 (this c hc)
  unfold typeAndName at h
  split at h
  · injection h with h; injection h with _ h; subst h; exact hg
  · injection h with h; injection h with _ h; subst h; exact hg
  · injection h with h; injection h with _ h; subst h
    split
    · exact hg
    · exact legal_append hg htot
  · injection h with h; injection h with _ h; subst h; exact hg
  · cases h

/-- An ASCII-only classification, for examples. -/
def asciiOnly : Alnum := ⟨fun c => isAsciiAlphanumeric c, fun _ _ => rfl⟩

/-- A configuration for examples. -/
def exampleCfg (ns : Option Str) : Cfg where
  alnum := asciiOnly
  disableTargetInfo := false
  withoutUnits := false
  withoutCounterSuffixes := false
  disableScopeInfo := false
  ns := ns
  selector := .none
  sortVals := id
  sortVals_perm := fun _ => .refl _
  sortKeys := id
  sortKeys_perm := fun _ => .refl _

example : typeAndName (exampleCfg (some (withNamespace "app".toList))) (⟨"http.requests".toList, "km/s".toList, [], .sum true []⟩ : Metric Nat) =
    some (.counter, "app_http_requests_per_second_total".toList) := by decide +kernel

/-- C60 (finding). The namespace goes into every name as it is. -/
theorem namespace_violated : ∃ ns : Str, typeAndName (exampleCfg (some (withNamespace ns))) (⟨"a".toList, [], [], .gauge []⟩ : Metric Nat) =
    some (.gauge, "my-app_a".toList) := ⟨"my-app".toList, by decide +kernel⟩

/-- C60. Sanitized label names contain only letters, digits, `_` and `:`, character by character. -/
theorem label_chars (s : Str) : ∀ c ∈ sanitizeKv s, Alpha c ∨ Digit c ∨ c = '_' ∨ c = ':' := by
  intro c hc
  obtain ⟨d, _, rfl⟩ := List.mem_map.1 hc
  split
  · rename_i h
    rw [Bool.or_eq_true, alnum_iff, beq_iff_eq] at h
    rcases h with (h | h) | h
    · exact .inl h
    · exact .inr (.inl h)
    · exact .inr (.inr (.inr h))
  · exact .inr (.inr (.inl rfl))

/-- C60 (part). A key that has no `:` and does not start with a digit becomes a legal label name, and a legal label name is unchanged.
Missing: `:` and a leading digit (`label_violated`). -/
theorem label_legal_partial (s : Str) :
    (s ≠ [] → ':' ∉ s → (∀ c, s.head? = some c → ¬ Digit c) → LegalLabel (sanitizeKv s)) ∧ (LegalLabel s → sanitizeKv s = s) := by
  constructor
  · intro hne hcol hd
    cases s with
    | nil => exact absurd rfl hne
    | cons c t =>
      have hch : ∀ x ∈ (c :: t : Str), ∀ y, y = (if (isAsciiAlphanumeric x || x == ':') = true then x else '_') → Alpha y ∨ Digit y ∨ y = '_' := by
        intro x hx y hy
        rw [hy]
        split
        · rename_i h
          rw [Bool.or_eq_true, alnum_iff, beq_iff_eq] at h
          rcases h with (h | h) | rfl
          · exact .inl h
          · exact .inr (.inl h)
          · exact absurd hx hcol
        · exact .inr (.inr rfl)
      refine ⟨_, sanitizeKv t, rfl, ?_, ?_⟩
      · have h0 := hd c rfl
        rcases hch c List.mem_cons_self _ rfl with h | h | h
        · exact .inl h
        · split at h
          · exact absurd h h0
          · exact absurd h (by unfold Digit; decide)
        · exact .inr h
      · intro d hd
        obtain ⟨x, hx, rfl⟩ := List.mem_map.1 hd
        exact hch x (List.mem_cons_of_mem _ hx) _ rfl
  · rintro ⟨c, t, rfl, hc, ht⟩
    have : ∀ d ∈ (c :: t : Str), Alpha d ∨ Digit d ∨ d = '_' := by
      intro d hd
      rcases List.mem_cons.1 hd with rfl | hd
      · exact hc.elim .inl (fun h => .inr (.inr h))
      · exact ht d hd
    unfold sanitizeKv
    conv => rhs; rw [← List.map_id (c :: t)]
    apply List.map_congr_left
    intro d hd
    show _ = d
    rcases this d hd with h | h | rfl
    · rw [if_pos]; rw [Bool.or_eq_true, alnum_iff]; exact .inl (.inl h)
    · rw [if_pos]; rw [Bool.or_eq_true, alnum_iff]; exact .inl (.inr h)
    · rfl

example : LegalLabel (sanitizeKv "http.method".toList) :=
  (label_legal_partial _).1 (by decide) (by decide) (by intro c hc; injection hc with hc; subst hc; unfold Digit; decide)

/-- C60 (finding). A label name may start with a digit and may contain a colon, both illegal. -/
theorem label_violated : sanitizeKv "1st".toList = "1st".toList ∧ sanitizeKv "a:b".toList = "a:b".toList ∧
    ¬ LegalLabel "1st".toList ∧ ¬ LegalLabel "a:b".toList := by
  refine ⟨by decide, by decide, ?_, ?_⟩
  · rintro ⟨c, t, he, hc, _⟩
    injection he with he _; subst he
    rcases hc with (h | h) | h
    · exact absurd h (by decide)
    · exact absurd h (by decide)
    · cases h
  · rintro ⟨c, t, he, _, ht⟩
    injection he with _ he; subst he
    rcases ht ':' (by decide) with (h | h) | h | h
    · exact absurd h (by decide)
    · exact absurd h (by decide)
    · exact absurd h (by unfold Digit; decide)
    · cases h

/-! ## C73: labels -/

/-- The values whose key is sanitized to `k`, in order. -/
def valuesOf (kvs : List (Str × Str)) (k : Str) : List Str := (kvs.filter fun p => decide (sanitizeKv p.1 = k)).map Prod.snd

theorem group_get (kvs : List (Str × Str)) (k : Str) :
    Assoc.get (group kvs) k = if valuesOf kvs k = [] then none else some (valuesOf kvs k) := by
  suffices H : ∀ (kvs : List (Str × Str)) (m : List (Str × List Str)), Assoc.get (kvs.foldl groupAdd m) k =
      if valuesOf kvs k = [] then Assoc.get m k else some ((Assoc.get m k).getD [] ++ valuesOf kvs k) from H kvs []
  intro kvs
  induction kvs with
  | nil => intro m; rfl
  | cons p kvs ih =>
    intro m
    rw [List.foldl_cons, ih, groupAdd, Assoc.get_insert]
    by_cases hk : sanitizeKv p.1 = k
    · have hv : valuesOf (p :: kvs) k = p.2 :: valuesOf kvs k := by
        unfold valuesOf; rw [List.filter_cons_of_pos (by simp [hk])]; rfl
      rw [hv, if_pos hk.symm, hk, if_neg (List.cons_ne_nil _ _)]
      split
      · rename_i h; rw [h]
      · rw [Option.getD_some, List.append_assoc]; rfl
    · have hv : valuesOf (p :: kvs) k = valuesOf kvs k := by
        unfold valuesOf; rw [List.filter_cons_of_neg (by simp [hk])]
      rw [hv, if_neg (Ne.symm hk)]

theorem group_nodup (kvs : List (Str × Str)) : ((group kvs).map Prod.fst).Nodup := by
  suffices H : ∀ (kvs : List (Str × Str)) (m : List (Str × List Str)), (m.map Prod.fst).Nodup → ((kvs.foldl groupAdd m).map Prod.fst).Nodup from
    H kvs [] List.nodup_nil
  intro kvs
  induction kvs with
  | nil => exact fun m h => h
  | cons p kvs ih => exact fun m h => ih _ (Assoc.nodup_insert h _ _)

/-- C73. The labels made from a data point's attributes: one label for every different sanitized key, holding all its values (sorted and
separated by `;`); nothing is lost and nothing is added. -/
theorem labels_complete (cfg : Cfg) (kvs : List (Str × Str)) :
    ((getAttrs cfg kvs []).map Prod.fst).Nodup ∧
    (∀ p ∈ kvs, ∃ v, (sanitizeKv p.1, v) ∈ getAttrs cfg kvs []) ∧
    (∀ k v, (k, v) ∈ getAttrs cfg kvs [] ↔ valuesOf kvs k ≠ [] ∧ v = join [';'] (cfg.sortVals (valuesOf kvs k))) := by
  have e : getAttrs cfg kvs [] = (cfg.sortKeys (group kvs)).map (fun p => (p.1, join [';'] (cfg.sortVals p.2))) := List.append_nil _
  have hmem : ∀ k v, (k, v) ∈ getAttrs cfg kvs [] ↔ valuesOf kvs k ≠ [] ∧ v = join [';'] (cfg.sortVals (valuesOf kvs k)) := by
    intro k v
    rw [e]
    constructor
    · intro h
      obtain ⟨⟨a, vs⟩, ha, hb⟩ := List.mem_map.1 h
      injection hb with h1 h2
      have ha' := (cfg.sortKeys_perm _).mem_iff.1 ha
      have := Assoc.get_of_mem (group_nodup kvs) ha'
      rw [group_get] at this
      simp only at h1 h2
      subst h1
      split at this
      · cases this
      · rename_i hne
        injection this with this
        rw [← this] at h2
        exact ⟨hne, h2.symm⟩
    · rintro ⟨hne, rfl⟩
      have hg : Assoc.get (group kvs) k = some (valuesOf kvs k) := by rw [group_get, if_neg hne]
      exact List.mem_map.2 ⟨(k, valuesOf kvs k), (cfg.sortKeys_perm _).mem_iff.2 (Assoc.mem_of_get hg), rfl⟩
  refine ⟨?_, fun p hp => ?_, hmem⟩
  · rw [e, List.map_map]
    show ((cfg.sortKeys (group kvs)).map Prod.fst).Nodup
    exact (((cfg.sortKeys_perm _).map Prod.fst).nodup_iff).2 (group_nodup kvs)
  · refine ⟨_, (hmem _ _).2 ⟨?_, rfl⟩⟩
    intro h
    have : p.2 ∈ valuesOf kvs (sanitizeKv p.1) := List.mem_map.2 ⟨p, List.mem_filter.2 ⟨hp, by simp⟩, rfl⟩
    rw [h] at this; cases this

/-- C73 (finding). Labels are not unique in general: an attribute `otel_scope_name` meets the label of the scope. -/
theorem duplicate_label_violated : ∃ (m : Metric Nat) (s : ScopeMetrics Nat) (f : Family Nat),
    f ∈ (exportMetric (exampleCfg none) (scopeLabels (exampleCfg none) [] s) [] m).1 ∧ ¬ (f.labels.map Prod.fst).Nodup := by
  refine ⟨⟨"a".toList, [], [], .gauge [([("otel_scope_name".toList, "x".toList)], 1)]⟩, ⟨"lib".toList, none, [], []⟩,
    ⟨"a".toList, [], .gauge, [("otel_scope_name".toList, "x".toList), ("otel_scope_name".toList, "lib".toList)], .value 1⟩, ?_, ?_⟩
  · exact List.mem_singleton.2 rfl
  · show ¬ List.Nodup ["otel_scope_name".toList, "otel_scope_name".toList]
    decide

/-! ## C73: one type and one help text for each name -/

/-- What was exported agrees with the table of known names. -/
def Agrees (known : Known) (fs : List (Family N)) : Prop := ∀ f ∈ fs, Assoc.get known f.name = some (f.type, f.help)

/-- The table only grows. -/
def Grows (a b : Known) : Prop := ∀ k v, Assoc.get a k = some v → Assoc.get b k = some v

theorem exportMetric_agrees (cfg : Cfg) (extra : List Label) (known : Known) (m : Metric N) :
    Agrees (exportMetric cfg extra known m).2 (exportMetric cfg extra known m).1 ∧ Grows known (exportMetric cfg extra known m).2 := by
  unfold exportMetric
  split
  · exact ⟨fun f hf => (by cases hf), fun k v h => h⟩
  · rename_i ty name _
    split
    · rename_i known' hv
      refine ⟨fun f hf => (by cases hf), fun k v h => ?_⟩
      unfold validate at hv
      split at hv
      · split at hv
        · injection hv with _ hv; subst hv; exact h
        · split at hv <;> (injection hv with hv _; cases hv)
      · injection hv with hv _; cases hv
    · rename_i help known' hv
      unfold validate at hv
      cases hg : Assoc.get known name with
      | some e =>
        obtain ⟨ty', help'⟩ := e
        rw [hg] at hv
        simp only at hv
        split at hv
        · injection hv with hv _; cases hv
        · rename_i hty
          have hty : ty' = ty := by simpa using hty
          subst hty
          have hh : help = help' ∧ known' = known := by
            split at hv
            · injection hv with h1 h2; injection h1 with h1; exact ⟨h1.symm, h2.symm⟩
            · rename_i hd
              have hd : help' = m.description := by simpa using hd
              injection hv with h1 h2; injection h1 with h1; exact ⟨h1.symm.trans hd.symm, h2.symm⟩
          obtain ⟨rfl, rfl⟩ := hh
          refine ⟨fun f hf => ?_, fun k v h => h⟩
          obtain ⟨p, _, rfl⟩ := List.mem_map.1 hf
          exact hg
      | none =>
        rw [hg] at hv
        simp only at hv
        injection hv with h1 h2; injection h1 with h1
        subst h1; subst h2
        refine ⟨fun f hf => ?_, fun k v h => ?_⟩
        · obtain ⟨p, _, rfl⟩ := List.mem_map.1 hf
          show Assoc.get (Assoc.insert known name (ty, m.description)) name = _
          rw [Assoc.get_insert, if_pos rfl]
        · rw [Assoc.get_insert]
          by_cases hk : k = name
          · subst hk; rw [hg] at h; cases h
          · rw [if_neg hk]; exact h

theorem exportMetrics_agrees (cfg : Cfg) (extra : List Label) (ms : List (Metric N)) (known : Known) :
    Agrees (exportMetrics cfg extra known ms).2 (exportMetrics cfg extra known ms).1 ∧ Grows known (exportMetrics cfg extra known ms).2 := by
  induction ms generalizing known with
  | nil => exact ⟨fun f hf => (by cases hf), fun k v h => h⟩
  | cons m ms ih =>
    obtain ⟨h1, h2⟩ := exportMetric_agrees cfg extra known m
    obtain ⟨h3, h4⟩ := ih (exportMetric cfg extra known m).2
    refine ⟨fun f hf => ?_, fun k v h => h4 _ _ (h2 _ _ h)⟩
    rcases List.mem_append.1 (show f ∈ (exportMetric cfg extra known m).1 ++ _ from hf) with h | h
    · exact h4 _ _ (h1 f h)
    · exact h3 f h

/-- The families of instruments in the output of a scrape: all but the two information metrics. -/
def instrumentFamilies (cfg : Cfg) (rl : List Label) : Known → List (ScopeMetrics N) → List (Family N)
  | _, [] => []
  | known, s :: ss => (exportMetrics cfg (scopeLabels cfg rl s) known s.metrics).1 ++
      instrumentFamilies cfg rl (exportMetrics cfg (scopeLabels cfg rl s) known s.metrics).2 ss

theorem exportScopes_agrees (cfg : Cfg) (one : N) (rl : List Label) (ss : List (ScopeMetrics N)) (known : Known) :
    Agrees (exportScopes cfg one rl known ss).2 (instrumentFamilies cfg rl known ss) ∧ Grows known (exportScopes cfg one rl known ss).2 := by
  induction ss generalizing known with
  | nil => exact ⟨fun f hf => (by cases hf), fun k v h => h⟩
  | cons s ss ih =>
    obtain ⟨h1, h2⟩ := exportMetrics_agrees cfg (scopeLabels cfg rl s) s.metrics known
    obtain ⟨h3, h4⟩ := ih (exportMetrics cfg (scopeLabels cfg rl s) known s.metrics).2
    refine ⟨fun f hf => ?_, fun k v h => h4 _ _ (h2 _ _ h)⟩
    rcases List.mem_append.1 (show f ∈ (exportMetrics cfg (scopeLabels cfg rl s) known s.metrics).1 ++ _ from hf) with h | h
    · exact h4 _ _ (h1 f h)
    · exact h3 f h

/-- The families of a scrape are those of the instruments and the information metrics. -/
theorem collect_families (cfg : Cfg) (one : N) (resource : List (Str × Str)) (known : Known) (ss : List (ScopeMetrics N)) (f : Family N) :
    f ∈ (collect cfg one resource known ss).1 ↔
      f ∈ targetInfo cfg one resource ∨ (∃ s ∈ ss, f ∈ scopeInfo cfg one s) ∨ f ∈ instrumentFamilies cfg (select cfg resource) known ss := by
  have : ∀ known, f ∈ (exportScopes cfg one (select cfg resource) known ss).1 ↔
      (∃ s ∈ ss, f ∈ scopeInfo cfg one s) ∨ f ∈ instrumentFamilies cfg (select cfg resource) known ss := by
    induction ss with
    | nil => intro known; simp [exportScopes, instrumentFamilies]
    | cons s ss ih =>
      intro known
      show f ∈ scopeInfo cfg one s ++ _ ++ _ ↔ _
      rw [List.mem_append, List.mem_append, ih]
      simp only [instrumentFamilies, List.mem_append, List.mem_cons, exists_eq_or_imp]
      constructor
      · rintro ((h | h) | h | h)
        · exact .inl (.inl h)
        · exact .inr (.inl h)
        · exact .inl (.inr h)
        · exact .inr (.inr h)
      · rintro ((h | h) | h | h)
        · exact .inl (.inl h)
        · exact .inr (.inl h)
        · exact .inl (.inr h)
        · exact .inr (.inr h)
  show f ∈ targetInfo cfg one resource ++ _ ↔ _
  rw [List.mem_append, this]

/-- The instrument families of a sequence of scrapes. -/
def scrapes (cfg : Cfg) (one : N) (resource : List (Str × Str)) : Known → List (List (ScopeMetrics N)) → List (Family N)
  | _, [] => []
  | known, ss :: rest => instrumentFamilies cfg (select cfg resource) known ss ++ scrapes cfg one resource (collect cfg one resource known ss).2 rest

/-- C73. In all the scrapes of an exporter's life a metric name has one type and one help text, whatever instruments there are. -/
theorem one_type_and_help (cfg : Cfg) (one : N) (resource : List (Str × Str)) (hist : List (List (ScopeMetrics N))) :
    ∀ f ∈ scrapes cfg one resource [] hist, ∀ g ∈ scrapes cfg one resource [] hist, f.name = g.name → f.type = g.type ∧ f.help = g.help := by
  suffices H : ∀ (known : Known) (hist : List (List (ScopeMetrics N))), ∃ known', Agrees known' (scrapes cfg one resource known hist) ∧ Grows known known' by
    obtain ⟨k, h, _⟩ := H [] hist
    intro f hf g hg hn
    have h1 := h f hf
    have h2 := h g hg
    rw [hn, h2] at h1
    injection h1 with h1
    injection h1 with h1 h3
    exact ⟨h1.symm, h3.symm⟩
  intro known hist
  induction hist generalizing known with
  | nil => exact ⟨known, fun f hf => (by cases hf), fun k v h => h⟩
  | cons ss rest ih =>
    obtain ⟨h1, h2⟩ := exportScopes_agrees cfg one (select cfg resource) ss known
    obtain ⟨k, h3, h4⟩ := ih (collect cfg one resource known ss).2
    refine ⟨k, fun f hf => ?_, fun a v h => h4 _ _ (h2 _ _ h)⟩
    rcases List.mem_append.1 hf with h | h
    · exact h4 _ _ (h1 f h)
    · exact h3 f h

/-- C73. A metric whose name is new, or known with the same type, is exported with all its data points, in order, with their labels and
numbers; its help text is the first one seen for the name. A metric whose name is known with another type is dropped altogether. -/
theorem metric_exported (cfg : Cfg) (extra : List Label) (known : Known) (m : Metric N) {ty : MType} {name : Str}
    (h : typeAndName cfg m = some (ty, name)) :
    (Assoc.get known name = none → (exportMetric cfg extra known m).1 =
      (points m.data).map fun p => ⟨name, m.description, ty, getAttrs cfg p.attrs extra, p.num⟩) ∧
    (∀ help, Assoc.get known name = some (ty, help) → (exportMetric cfg extra known m).1 =
      (points m.data).map fun p => ⟨name, help, ty, getAttrs cfg p.attrs extra, p.num⟩) ∧
    (∀ ty' help, Assoc.get known name = some (ty', help) → ty' ≠ ty → (exportMetric cfg extra known m).1 = []) := by
  refine ⟨fun hk => ?_, fun help hk => ?_, fun ty' help hk hne => ?_⟩
  · simp only [exportMetric, h, validate, hk]
  · simp only [exportMetric, h, validate, hk, ne_eq, not_true, if_false]
    by_cases hd : help = m.description
    · subst hd; simp only [not_true, if_false]
    · simp only [if_pos hd]
  · simp only [exportMetric, h, validate, hk, ne_eq, if_pos hne]

/-- C73 (finding). Different instruments can have the same exported name; then the second one disappears if its type differs. -/
theorem name_clash_violated : ∃ a b : Metric Nat, a.name ≠ b.name ∧
    (exportMetrics (exampleCfg none) [] [] [a, b]).1.map (fun f => f.type) = [MType.gauge] ∧ (points b.data).length = 1 :=
  ⟨⟨"a.b".toList, [], [], .gauge [([], 1)]⟩, ⟨"a_b".toList, [], [], .histogram [([], 1, 1, [], [1])]⟩, by decide, by decide +kernel, rfl⟩

/-- C73 (finding). With equal types both are exported, and one scrape holds the same series twice. -/
theorem duplicate_series_violated : ∃ a b : Metric Nat, a.name ≠ b.name ∧
    (exportMetrics (exampleCfg none) [] [] [a, b]).1.map (fun f => (f.name, f.labels)) = [("a_b".toList, []), ("a_b".toList, [])] :=
  ⟨⟨"a.b".toList, [], [], .gauge [([], 1)]⟩, ⟨"a_b".toList, [], [], .gauge [([], 2)]⟩, by decide, by decide +kernel⟩

/-! ## C73: histograms -/

/-- C73. The buckets of a histogram: the bounds are kept in order and every bucket counts all observations up to its bound. -/
theorem buckets_cumulative (bounds : List N) (counts : List Nat) (hl : counts.length = bounds.length + 1) :
    (buckets bounds counts).map Prod.fst = bounds ∧
    ∀ i, i < bounds.length → ((buckets bounds counts).map Prod.snd)[i]? = some ((counts.take (i + 1)).sum) := by
  suffices H : ∀ (bounds : List N) (counts : List Nat) (acc : List (N × Nat)) (c : Nat), bounds.length ≤ counts.length →
      ∃ out, ((bounds.zip counts).foldl (fun (acc : List (N × Nat) × Nat) p => (acc.1 ++ [(p.1, acc.2 + p.2)], acc.2 + p.2)) (acc, c)).1 = acc ++ out ∧
        out.map Prod.fst = bounds ∧ ∀ i, i < bounds.length → (out.map Prod.snd)[i]? = some (c + (counts.take (i + 1)).sum) by
    obtain ⟨out, h1, h2, h3⟩ := H bounds counts [] 0 (by omega)
    have e : buckets bounds counts = out := h1
    rw [e]
    exact ⟨h2, fun i hi => by rw [h3 i hi, Nat.zero_add]⟩
  intro bounds
  induction bounds with
  | nil => intro counts acc c _; exact ⟨[], (List.append_nil _).symm, rfl, fun i hi => absurd hi (by simp)⟩
  | cons b bounds ih =>
    intro counts acc c hl
    cases counts with
    | nil => simp at hl
    | cons n counts =>
      obtain ⟨out, h1, h2, h3⟩ := ih counts (acc ++ [(b, c + n)]) (c + n) (by simpa using hl)
      refine ⟨(b, c + n) :: out, ?_, ?_, ?_⟩
      · rw [List.zip_cons_cons, List.foldl_cons, h1, List.append_assoc]; rfl
      · rw [List.map_cons, h2]
      · intro i hi
        cases i with
        | zero => simp
        | succ i =>
          rw [List.map_cons, List.getElem?_cons_succ, h3 i (by simpa using hi), List.take_succ_cons, List.sum_cons, Nat.add_assoc]

/-- C73. Bucket counts never decrease, and none exceeds the number of observations. -/
theorem buckets_monotone (bounds : List N) (counts : List Nat) (hl : counts.length = bounds.length + 1) (i j x y : Nat) (hij : i ≤ j)
    (hx : ((buckets bounds counts).map Prod.snd)[i]? = some x) (hy : ((buckets bounds counts).map Prod.snd)[j]? = some y) :
    x ≤ y ∧ y ≤ counts.sum := by
  obtain ⟨h1, h2⟩ := buckets_cumulative bounds counts hl
  have hlen : ((buckets bounds counts).map Prod.snd).length = bounds.length := by
    rw [List.length_map, ← List.length_map (f := Prod.fst), h1]
  have hj : j < bounds.length := by
    have := (List.getElem?_eq_some_iff.1 hy).1; omega
  rw [h2 i (by omega)] at hx; rw [h2 j hj] at hy
  injection hx with hx; injection hy with hy
  subst hx; subst hy
  have hmono : ∀ (l : List Nat) (a b : Nat), a ≤ b → (l.take a).sum ≤ (l.take b).sum := by
    intro l
    induction l with
    | nil => intro a b _; simp
    | cons n l ih =>
      intro a b hab
      cases a with
      | zero => simp
      | succ a =>
        cases b with
        | zero => omega
        | succ b => simp only [List.take_succ_cons, List.sum_cons]; have := ih a b (by omega); omega
  refine ⟨hmono _ _ _ (by omega), ?_⟩
  have := hmono counts (j + 1) counts.length (by omega)
  rwa [List.take_length] at this

example : buckets [1, 5, 10] [2, 0, 3, 7] = [(1, 2), (5, 2), (10, 5)] := rfl

/-! ## C73: scope and resource -/

/-- C73. Every data point of a scope carries the scope's name (and version) and the selected resource attributes, unless scope information
is switched off. -/
theorem scope_labels_present (cfg : Cfg) (resource : List (Str × Str)) (s : ScopeMetrics N) (known : Known) (hd : cfg.disableScopeInfo = false)
    (f : Family N) (hf : f ∈ (exportMetrics cfg (scopeLabels cfg (select cfg resource) s) known s.metrics).1) :
    ("otel_scope_name".toList, s.scopeName) ∈ f.labels ∧ (∀ v, s.scopeVersion = some v → ("otel_scope_version".toList, v) ∈ f.labels) ∧
    ∀ l ∈ select cfg resource, l ∈ f.labels := by
  have key : ∀ (ms : List (Metric N)) (known : Known) (extra : List Label), ∀ f ∈ (exportMetrics cfg extra known ms).1, ∀ l ∈ extra, l ∈ f.labels := by
    intro ms
    induction ms with
    | nil => intro _ _ f hf; cases hf
    | cons m ms ih =>
      intro known extra f hf l hl
      rcases List.mem_append.1 (show f ∈ (exportMetric cfg extra known m).1 ++ _ from hf) with h | h
      · unfold exportMetric at h
        split at h
        · cases h
        · split at h
          · cases h
          · obtain ⟨p, _, rfl⟩ := List.mem_map.1 h
            exact List.mem_append_right _ hl
      · exact ih _ extra f h l hl
  have hx : scopeLabels cfg (select cfg resource) s = scopeNameLabels s ++ select cfg resource := by simp [scopeLabels, hd]
  have := key s.metrics known _ f hf
  rw [hx] at this
  refine ⟨this _ (List.mem_append_left _ List.mem_cons_self), fun v hv => this _ (List.mem_append_left _ ?_), fun l hl => this l (List.mem_append_right _ hl)⟩
  unfold scopeNameLabels
  rw [hv]
  exact List.mem_cons_of_mem _ (List.mem_singleton.2 rfl)

/-- C73 (finding). Switching off scope information also removes the selected resource attributes from the data points, though the
selector is documented to add them to every metric. -/
theorem resource_labels_violated (cfg : Cfg) (resource : List (Str × Str)) (s : ScopeMetrics N) (hd : cfg.disableScopeInfo = true) :
    scopeLabels cfg (select cfg resource) s = [] := by simp [scopeLabels, hd]

/-- C73 (finding). The attributes of a scope appear nowhere: the information metric that is written for a scope with attributes carries only
its name and version, so the output does not depend on them except through there being any. -/
theorem scope_attributes_violated (cfg : Cfg) (one : N) (s : ScopeMetrics N) (attrs : List (Str × Str)) (h : attrs ≠ []) (h' : s.scopeAttrs ≠ [])
    (resource : List (Str × Str)) (known : Known) :
    collect cfg one resource known [{ s with scopeAttrs := attrs }] = collect cfg one resource known [s] := by
  have e1 : attrs.isEmpty = false := by cases attrs with | nil => exact absurd rfl h | cons _ _ => rfl
  have e2 : s.scopeAttrs.isEmpty = false := by cases hs : s.scopeAttrs with | nil => exact absurd hs h' | cons _ _ => rfl
  simp only [collect, exportScopes, scopeInfo, e1, e2]
  rfl

/-! ## C60, C73: types, namespace, selection, information about the target -/

/-- C73. What a metric is exported as: monotonic sums as counters, histograms as histograms, gauges and other sums as gauges, nothing else. -/
theorem exported_as (cfg : Cfg) (extra : List Label) (known : Known) (m : Metric N) (f : Family N) (hf : f ∈ (exportMetric cfg extra known m).1) :
    (f.type = .counter ↔ ∃ dps, m.data = .sum true dps) ∧ (f.type = .histogram ↔ ∃ dps, m.data = .histogram dps) ∧
    (f.type = .gauge ↔ (∃ dps, m.data = .sum false dps) ∨ ∃ dps, m.data = .gauge dps) := by
  have hty : ∃ name, typeAndName cfg m = some (f.type, name) := by
    rw [exportMetric] at hf
    split at hf
    · cases hf
    · rename_i ty name h
      split at hf
      · cases hf
      · obtain ⟨p, _, rfl⟩ := List.mem_map.1 hf
        exact ⟨name, h⟩
  obtain ⟨name, h⟩ := hty
  rw [typeAndName] at h
  cases hd : m.data with
  | histogram dps => rw [hd] at h; injection h with h; injection h with h _; rw [← h]; simp
  | gauge dps => rw [hd] at h; injection h with h; injection h with h _; rw [← h]; simp
  | sum mono dps => rw [hd] at h; cases mono <;> (injection h with h; injection h with h _; rw [← h]; simp)
  | other => rw [hd] at h; cases h

example : ((exportMetric (exampleCfg none) [] [] (⟨"a".toList, [], [], .sum false [([], 3)]⟩ : Metric Nat)).1.map Family.type) = [.gauge] := by decide +kernel

/-- C60. One underscore stands between a namespace and the name: the prefix is the namespace if that ends in one, else the namespace and one underscore. -/
theorem namespace_underscore (ns : Str) :
    (∀ t, ns = t ++ ['_'] → withNamespace ns = ns) ∧ ((¬ ∃ t, ns = t ++ ['_']) → withNamespace ns = ns ++ ['_']) := by
  rw [withNamespace]
  refine ⟨?_, fun h => ?_⟩
  · rintro t rfl
    rw [if_pos (by simp)]
  · rw [if_neg]
    intro hl
    obtain ⟨t, rfl⟩ := List.getLast?_eq_some_iff.1 hl
    exact h ⟨t, rfl⟩

example : withNamespace "app_".toList = "app_".toList ∧ withNamespace "app".toList = "app_".toList := by decide

/-- C73. The labels a resource gives to every data point are those of the attributes the user selected: all, none, or those with a listed key, and of the values of
these only. -/
theorem selected_labels (cfg : Cfg) (resource : List (Str × Str)) (k v : Str) :
    (k, v) ∈ select cfg resource ↔
      ∃ chosen, (match cfg.selector with
          | .all => chosen = resource
          | .none => chosen = []
          | .keys ks => chosen = resource.filter fun p => decide (p.1 ∈ ks)) ∧
        valuesOf chosen k ≠ [] ∧ v = join [';'] (cfg.sortVals (valuesOf chosen k)) := by
  rw [select]
  cases cfg.selector with
  | all => simp only [exists_eq_left]; exact (labels_complete cfg resource).2.2 k v
  | none => simp [valuesOf]
  | keys ks =>
    simp only [exists_eq_left]
    rw [show (fun p : Str × Str => ks.contains p.1) = fun p => decide (p.1 ∈ ks) from funext fun p => by simp]
    exact (labels_complete cfg _).2.2 k v

/-- C73. `target_info` is written first, with all attributes of the resource as its labels, unless the user disabled it or there are none. -/
theorem target_info_written (cfg : Cfg) (one : N) (resource : List (Str × Str)) (known : Known) (ss : List (ScopeMetrics N)) :
    (cfg.disableTargetInfo = true ∨ resource = [] → ∀ f ∈ (collect cfg one resource known ss).1,
      (∃ s ∈ ss, f ∈ scopeInfo cfg one s) ∨ f ∈ instrumentFamilies cfg (select cfg resource) known ss) ∧
    (cfg.disableTargetInfo = false → resource ≠ [] → ∃ f, (collect cfg one resource known ss).1.head? = some f ∧ f.name = "target_info".toList ∧ f.type = .gauge ∧
      f.num = .value one ∧ ∀ k v, (k, v) ∈ f.labels ↔ valuesOf resource k ≠ [] ∧ v = join [';'] (cfg.sortVals (valuesOf resource k))) := by
  refine ⟨fun h f hf => ?_, fun hd hr => ?_⟩
  · rcases (collect_families cfg one resource known ss f).1 hf with h' | h'
    · rw [targetInfo, if_neg] at h'
      · cases h'
      · rcases h with h | h <;> simp [h]
    · exact h'
  · refine ⟨⟨"target_info".toList, "Target metadata".toList, .gauge, getAttrs cfg resource [], .value one⟩, ?_, rfl, rfl, rfl, (labels_complete cfg resource).2.2⟩
    show (targetInfo cfg one resource ++ _).head? = _
    rw [targetInfo, if_pos]
    · rfl
    · cases resource with
      | nil => exact absurd rfl hr
      | cons p r => simp [hd]

/-- C73. A scope with attributes has a family `otel_scope_info`, of value one, that names the scope and, if it has one, its version, unless the user disabled it; a scope without
attributes has none. -/
theorem scope_info_written (cfg : Cfg) (one : N) (resource : List (Str × Str)) (known : Known) (ss : List (ScopeMetrics N)) (s : ScopeMetrics N) (hs : s ∈ ss) :
    (cfg.disableScopeInfo = true ∨ s.scopeAttrs = [] → scopeInfo cfg one s = []) ∧
    (cfg.disableScopeInfo = false → s.scopeAttrs ≠ [] → ∃ f ∈ (collect cfg one resource known ss).1, f.name = "otel_scope_info".toList ∧
      f.help = "Instrumentation Scope metadata".toList ∧ f.type = .gauge ∧ f.num = .value one ∧
      (∀ k v, (k, v) ∈ f.labels ↔ (k = "otel_scope_name".toList ∧ v = s.scopeName) ∨ (k = "otel_scope_version".toList ∧ s.scopeVersion = some v))) := by
  refine ⟨fun h => ?_, fun hd ha => ?_⟩
  · rw [scopeInfo, if_neg]
    rcases h with h | h <;> simp [h]
  · have he : scopeInfo cfg one s = [⟨"otel_scope_info".toList, "Instrumentation Scope metadata".toList, .gauge, scopeNameLabels s, .value one⟩] := by
      rw [scopeInfo, if_pos]
      cases h : s.scopeAttrs with
      | nil => exact absurd h ha
      | cons p r => simp [hd]
    refine ⟨_, (collect_families cfg one resource known ss _).2 (.inr (.inl ⟨s, hs, by rw [he]; exact List.mem_singleton_self _⟩)), rfl, rfl, rfl, rfl, fun k v => ?_⟩
    simp only [scopeNameLabels]
    cases s.scopeVersion with
    | none => simp
    | some x => simp [eq_comm]

/-- A scope with an attribute. -/
example : ∃ f ∈ (collect (exampleCfg none) 1 [] [] [(⟨"lib".toList, some "1".toList, [("a".toList, "b".toList)], []⟩ : ScopeMetrics Nat)]).1, f.name = "otel_scope_info".toList :=
  have h := (scope_info_written (exampleCfg none) 1 [] [] [(⟨"lib".toList, some "1".toList, [("a".toList, "b".toList)], []⟩ : ScopeMetrics Nat)] _ (List.mem_singleton_self _)).2
    rfl (by simp)
  h.imp fun _ h => ⟨h.1, h.2.1⟩

end Otel.Prom
