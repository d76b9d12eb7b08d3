import Verif.Spec.Cardinality
import Verif.Lemmas.Strings

/-!
# Properties C30–C32 (`domain/languages/lexers/cardinality`)
-/

namespace Verif.Cardinality

/-- C30: `IsValid` is membership in the interval. -/
theorem C30_isValid_iff (c : Card) (n : UInt64) : c.isValid n = true ↔ SpecAllows c n.toNat := by
  rcases c with _ | _ | _ | _ | (k | ⟨min, _ | max⟩) <;>
    simp [Card.isValid, isValidDelim, Card.delimiter, Specific.delimiter, SpecAllows, UInt64.le_iff_toNat_le] <;>
    omega

/-- C30: a specific cardinality alone answers as the cardinality made of it. -/
theorem C30_specific_isValid (s : Specific) (n : UInt64) :
    s.isValid n = true ↔ SpecAllows (.specific s) n.toNat := C30_isValid_iff (.specific s) n

/-- C30: `Delimiter` gives the bounds of the interval. -/
theorem C30_delimiter (c : Card) (n : Nat) : SpecAllows c n ↔
    c.delimiter.1.toNat ≤ n ∧ ∀ m, c.delimiter.2 = some m → n ≤ m.toNat := by
  rcases c with _ | _ | _ | _ | (k | ⟨min, _ | max⟩) <;>
    simp [Card.delimiter, Specific.delimiter, SpecAllows] <;> omega

example : Card.isValid (.specific (.range ⟨2, some 4⟩)) 4 = true ∧
    Card.isValid (.specific (.range ⟨2, some 4⟩)) 5 = false ∧ Card.isValid .nonZeroMultiple 0 = false := by decide

/-! ## C31 -/

theorem digits_visible {n : Nat} : ∀ c ∈ itoaNat n, Visible c := by
  intro c hc
  have := itoaNat_digits n c hc
  unfold Visible; omega

theorem digits_not {n : Nat} {c : UInt8} (h : c.toNat < 48 ∨ 57 < c.toNat) : c ∉ itoaNat n := by
  intro hc
  have := itoaNat_digits n c hc
  omega

theorem trim_digits (n : Nat) : trimSpace (itoaNat n) = itoaNat n := by
  apply trimSpace_id
  · intro c hc; exact digits_visible c (List.mem_of_mem_head? hc)
  · intro c hc; exact digits_visible c (List.mem_of_mem_getLast? hc)

theorem getLast_snoc (a : Str) (c d : UInt8) (h : d ∈ (a ++ [c]).getLast?) : d = c := by
  simp only [List.getLast?_append, List.getLast?_singleton, Option.some_or, Option.mem_def, Option.some.injEq] at h
  exact h.symm

/-- The braces are removed. -/
theorem toSpecific_braces (t : Str) : toSpecific ([openC] ++ t ++ [closeC]) = parseSpecific t := by
  have ht : trimSpace ([openC] ++ t ++ [closeC]) = [openC] ++ t ++ [closeC] := by
    apply trimSpace_id
    · intro c hc; simp at hc; subst hc; simp [Visible, openC]
    · intro c hc; rw [getLast_snoc _ _ _ hc]; simp [Visible, closeC]
  have h1 : [openC] <+: ([openC] ++ t ++ [closeC]) := by simp
  have h2 : [closeC] <:+ ([openC] ++ t ++ [closeC]) := List.suffix_append _ _
  unfold toSpecific
  rw [ht]
  unfold stripOpen
  rw [if_pos h1]
  simp only [List.cons_append, List.nil_append, Out.bind_ok]
  rw [stripClose]
  simp only [List.cons_append, List.nil_append] at h2
  rw [if_pos h2]
  simp

theorem split_digits (n : Nat) : splitSep commaC [] (itoaNat n) = [itoaNat n] := by
  rw [splitSep_single]
  exact ⟨rfl, by rw [mem_of_infix_single]; exact digits_not (by decide)⟩

theorem split_two (n : Nat) (b : Str) (hb : commaC ∉ b) :
    splitSep commaC [] (itoaNat n ++ [commaC] ++ b) = [itoaNat n, b] := by
  rw [splitSep_pair]
  refine ⟨rfl, ?_, by rw [mem_of_infix_single]; exact hb⟩
  simp only [List.dropLast_singleton, List.append_nil, mem_of_infix_single]
  exact digits_not (by decide)

/-- What `ToSpecific` does on a printed specific cardinality. -/
theorem toSpecific_str (s : Specific) : toSpecific (specificStr s) =
    match s with
    | .amount n => if n.toNat < 2 ^ 63 ∧ n ≠ 0 then .ok s else .err
    | .range ⟨min, none⟩ => if min.toNat < 2 ^ 63 then .ok s else .err
    | .range ⟨min, some max⟩ => if min.toNat < 2 ^ 63 ∧ max.toNat < 2 ^ 63 then .ok s else .err := by
  rcases s with n | ⟨min, _ | max⟩
  · simp only [specificStr, toSpecific_braces, parseSpecific, split_digits]
    by_cases h : n.toNat < 2 ^ 63
    · rw [digit_number h]
      simp only [Out.bind_ok, ofInt_toNat, specificNow, h, true_and]
      by_cases h0 : n = 0
      · subst h0; simp
      · have : ¬ n ≤ 0 := fun hle => h0 (UInt64.le_antisymm hle UInt64.zero_le)
        simp [h0, this]
    · rw [digit_number_big (by omega)]; simp [h]
  · have e : specificStr (.range ⟨min, none⟩) = [openC] ++ (itoaNat min.toNat ++ [commaC] ++ []) ++ [closeC] := by
      simp [specificStr]
    rw [e]
    simp only [toSpecific_braces, parseSpecific, split_two _ [] (by simp)]
    have ht : trimSpace [] = [] := by decide
    by_cases h : min.toNat < 2 ^ 63
    · rw [digit_number h]
      simp [ht, rangeNow, specificNow, ofInt_toNat, h]
    · rw [digit_number_big (by omega)]; simp [h]
  · have e : specificStr (.range ⟨min, some max⟩) =
        [openC] ++ (itoaNat min.toNat ++ [commaC] ++ itoaNat max.toNat) ++ [closeC] := by
      simp [specificStr]
    rw [e]
    simp only [toSpecific_braces, parseSpecific, split_two _ _ (digits_not (c := commaC) (by decide))]
    by_cases h : min.toNat < 2 ^ 63
    · rw [digit_number h]
      simp only [Out.bind_ok, trim_digits, itoaNat_ne_nil, ne_eq, not_false_eq_true, if_true]
      by_cases h' : max.toNat < 2 ^ 63
      · rw [digit_number h']
        simp [rangeNow, specificNow, ofInt_toNat, h, h']
      · rw [digit_number_big (by omega)]; simp [h']
    · rw [digit_number_big (by omega)]; simp [h]

theorem trim_specific (s : Specific) : trimSpace (specificStr s) = specificStr s := by
  apply trimSpace_id
  · intro c hc
    rcases s with n | ⟨min, _ | max⟩ <;> simp [specificStr] at hc <;> subst hc <;> simp [Visible, openC]
  · intro c hc
    rcases s with n | ⟨min, _ | max⟩ <;> rw [specificStr] at hc <;> rw [getLast_snoc _ _ _ hc] <;>
      simp [Visible, closeC]

theorem specificStr_head (s : Specific) : (specificStr s).head? = some openC := by
  rcases s with n | ⟨min, _ | max⟩ <;> simp [specificStr]

theorem toCardinality_specific (s : Specific) : toCardinality (specificStr s) =
    (do let x ← toSpecific (specificStr s); .ok (.specific x)) := by
  have hne : ∀ c, c ≠ openC → specificStr s ≠ [c] := by
    intro c hc h
    have := specificStr_head s
    rw [h] at this; simp at this; exact hc this
  unfold toCardinality
  simp only [trim_specific]
  rw [if_neg (hne _ (by decide)), if_neg (hne _ (by decide)), if_neg (hne _ (by decide))]
  simp [Builder.now]

/-- C31: printing succeeds exactly for the cardinalities that are not mandatory; on the mandatory one the program
panics. -/
theorem C31_print_panics_iff (c : Card) :
    (c = .mandatory → toPatternString c = .panic) ∧ (c ≠ .mandatory → ∃ t, toPatternString c = .ok t) := by
  cases c <;> simp [toPatternString]

/-- C31: reading back what was printed gives the same cardinality, exactly when the numbers are below 2^63 (and an
exact amount is not zero). -/
theorem C31_roundtrip_iff (c : Card) (t : Str) (h : toPatternString c = .ok t) :
    toCardinality t = .ok c ↔ SpecNumbersFit c := by
  rcases c with _ | _ | _ | _ | s
  · simp [toPatternString] at h; subst h; simp [SpecNumbersFit]; decide
  · simp [toPatternString] at h
  · simp [toPatternString] at h; subst h; simp [SpecNumbersFit]; decide
  · simp [toPatternString] at h; subst h; simp [SpecNumbersFit]; decide
  · simp [toPatternString] at h; subst h
    rw [toCardinality_specific, toSpecific_str]
    rcases s with n | ⟨min, _ | max⟩
    · simp only [SpecNumbersFit]
      have : n ≠ 0 ↔ 0 < n.toNat := by
        rw [Nat.pos_iff_ne_zero, ne_eq, ne_eq, ← UInt64.toNat_inj]; simp
      simp only [this]
      split
      · rename_i h; simp [h]
      · rename_i h; simp; intro h1; omega
    · simp only [SpecNumbersFit]
      split <;> simp_all
    · simp only [SpecNumbersFit]
      split <;> simp_all

/-- C31: different cardinalities are printed differently. -/
theorem C31_print_injective (c d : Card) (t : Str) (hc : toPatternString c = .ok t) (hd : toPatternString d = .ok t) :
    c = d := by
  have hs : ∀ s s' : Specific, specificStr s = specificStr s' → s = s' := by
    have spl1 : ∀ n : UInt64, splitSep commaC [] (itoaNat n.toNat) = [itoaNat n.toNat] := fun n => split_digits _
    have num : ∀ n m : UInt64, itoaNat n.toNat = itoaNat m.toNat → n = m :=
      fun n m h => UInt64.toNat_inj.mp (itoaNat_injective h)
    intro s s' h
    have inner : ∀ a b : Str, [openC] ++ a ++ [closeC] = [openC] ++ b ++ [closeC] → a = b := by
      intro a b h; simpa using h
    have body : ∀ s : Specific, ∃ b, specificStr s = [openC] ++ b ++ [closeC] ∧ splitSep commaC [] b =
        (match s with
         | .amount n => [itoaNat n.toNat]
         | .range ⟨min, none⟩ => [itoaNat min.toNat, []]
         | .range ⟨min, some max⟩ => [itoaNat min.toNat, itoaNat max.toNat]) := by
      rintro (n | ⟨min, _ | max⟩)
      · exact ⟨itoaNat n.toNat, rfl, split_digits _⟩
      · exact ⟨itoaNat min.toNat ++ [commaC] ++ [], by simp [specificStr], split_two _ _ (by simp)⟩
      · exact ⟨itoaNat min.toNat ++ [commaC] ++ itoaNat max.toNat, by simp [specificStr],
          split_two _ _ (digits_not (by decide))⟩
    obtain ⟨b, hb, sb⟩ := body s
    obtain ⟨b', hb', sb'⟩ := body s'
    rw [hb, hb'] at h
    have := inner _ _ h
    subst this
    rw [sb] at sb'
    rcases s with n | ⟨min, _ | max⟩ <;> rcases s' with n' | ⟨min', _ | max'⟩ <;> simp at sb'
    · rw [num _ _ sb']
    · rw [num _ _ sb']
    · exact absurd sb'.2 (itoaNat_ne_nil _)
    · exact absurd sb'.2 (itoaNat_ne_nil _)
    · rw [num _ _ sb'.1, num _ _ sb'.2]
  have hh : ∀ s : Specific, ∀ c : UInt8, c ≠ openC → specificStr s ≠ [c] := by
    intro s c hc h
    have := specificStr_head s
    rw [h] at this; simp at this; exact hc this
  rcases c with _ | _ | _ | _ | s <;> rcases d with _ | _ | _ | _ | s' <;> simp [toPatternString] at hc hd <;>
    subst hc <;> first
    | rfl
    | exact absurd hd (by decide)
    | exact absurd hd (hh _ _ (by decide))
    | exact absurd hd.symm (hh _ _ (by decide))
    | rw [hs _ _ hd]

example : ∃ t, toPatternString (.specific (.range ⟨2, some 10⟩)) = .ok t ∧ t = lit "{2,10}" ∧
    toCardinality t = .ok (.specific (.range ⟨2, some 10⟩)) := ⟨_, rfl, by decide, by decide +kernel⟩

/-! ## Parsing any text -/

theorem atoi_no_panic (s : Str) : atoi s ≠ .panic := by
  unfold atoi
  simp only
  split
  · simp
  · split <;> simp

theorem specificNow_no_panic (a : Option UInt64) (r : Option Range) : specificNow a r ≠ .panic := by
  unfold specificNow
  split
  · split <;> simp
  · split <;> simp

theorem parseSpecific_no_panic (t : Str) : parseSpecific t ≠ .panic := by
  unfold parseSpecific
  split
  · rename_i a _
    cases h : atoi a with
    | ok n => simpa using specificNow_no_panic _ _
    | err => simp
    | panic => exact absurd h (atoi_no_panic a)
  · rename_i a b _
    cases h : atoi a with
    | ok n =>
      simp only [Out.bind_ok]
      split
      · cases h' : atoi (trimSpace b) with
        | ok n => simpa [rangeNow] using specificNow_no_panic _ _
        | err => simp
        | panic => exact absurd h' (atoi_no_panic _)
      · simpa [rangeNow] using specificNow_no_panic _ _
    | err => simp
    | panic => exact absurd h (atoi_no_panic a)
  · exact specificNow_no_panic _ _

theorem parseSpecific_spec (t : Str) (s : Specific) : parseSpecific t = .ok s ↔
    (∃ n, commaC ∉ t ∧ atoi t = .ok n ∧ UInt64.ofInt n ≠ 0 ∧ s = .amount (UInt64.ofInt n)) ∨
    (∃ a b min, t = a ++ [commaC] ++ b ∧ commaC ∉ a ∧ commaC ∉ b ∧ atoi a = .ok min ∧
      ((trimSpace b = [] ∧ s = .range ⟨UInt64.ofInt min, none⟩) ∨
       (∃ max, atoi (trimSpace b) = .ok max ∧ s = .range ⟨UInt64.ofInt min, some (UInt64.ofInt max)⟩))) := by
  have h0 : ∀ m : UInt64, m ≤ 0 ↔ m = 0 := by
    intro m
    constructor
    · intro h; exact UInt64.le_antisymm h (UInt64.zero_le)
    · rintro rfl; exact UInt64.le_refl _
  have hnil : atoi [] = .err := by decide
  constructor
  · intro h
    unfold parseSpecific at h
    split at h
    · rename_i a ha
      obtain ⟨rfl, hc⟩ := splitSep_single.mp ha
      rw [mem_of_infix_single] at hc
      simp only [Out.bind_eq_ok, specificNow] at h
      obtain ⟨n, hn, h⟩ := h
      split at h
      · simp at h
      · rename_i hz
        simp at h
        exact .inl ⟨n, hc, hn, fun e => hz ((h0 _).mpr e), h.symm⟩
    · rename_i a b hab
      obtain ⟨e, h1, h2⟩ := splitSep_pair.mp hab
      simp only [List.dropLast_singleton, List.append_nil, mem_of_infix_single] at h1 h2
      simp only [Out.bind_eq_ok] at h
      obtain ⟨min, hmin, h⟩ := h
      right
      refine ⟨a, b, min, e, h1, h2, hmin, ?_⟩
      split at h
      · simp only [Out.bind_eq_ok, rangeNow, Out.ok.injEq, specificNow] at h
        obtain ⟨max, hmax, r, rfl, rfl⟩ := h
        exact .inr ⟨max, hmax, rfl⟩
      · rename_i hb
        simp only [Out.bind_eq_ok, rangeNow, Out.ok.injEq, specificNow] at h
        obtain ⟨r, rfl, rfl⟩ := h
        exact .inl ⟨by simpa using hb, rfl⟩
    · simp [specificNow] at h
  · rintro (⟨n, h1, h2, h3, rfl⟩ | ⟨a, b, min, rfl, h1, h2, h3, h4⟩)
    · have := splitSep_single.mpr ⟨rfl, (mem_of_infix_single (s := t)).not.mpr h1⟩
      simp only [parseSpecific, this, h2, Out.bind_ok, specificNow, h0]
      rw [if_neg h3]
    · have := (splitSep_pair (c := commaC) (ds := []) (s := a ++ [commaC] ++ b) (a := a) (b := b)).mpr
        ⟨rfl, by simpa [mem_of_infix_single] using h1, by simpa [mem_of_infix_single] using h2⟩
      simp only [parseSpecific, this, h3, Out.bind_ok]
      rcases h4 with ⟨h4, rfl⟩ | ⟨max, h4, rfl⟩
      · simp [h4, rangeNow, specificNow]
      · have : trimSpace b ≠ [] := by
          intro h; rw [h, hnil] at h4; simp at h4
        simp [h4, this, rangeNow, specificNow]

/-- The text between the braces: a trimmed text `t` loses one opening brace at the front and one closing brace at the
back; both are optional and independent of each other. -/
def SpecUnbraced (t u : Str) : Prop :=
  ∃ o c : Str, t = o ++ u ++ c ∧ (o = lit "{" ∨ o = [] ∧ t.head? ≠ some openC) ∧
    (c = lit "}" ∨ c = [] ∧ t.getLast? ≠ some closeC)

theorem trimSpace_idem (s : Str) : trimSpace (trimSpace s) = trimSpace s := by
  have hne : ∀ q ∈ spaceSeqs, q ≠ [] := by decide
  have hne' : ∀ q ∈ spaceSeqs.map List.reverse, q ≠ [] := by decide
  have h1 := trimLeft_done hne s.length s le_rfl
  set l := trimLeft spaceSeqs s.length s with hl
  have h2 := trimLeft_done hne' l.length l.reverse (by simp)
  have h3 := trimLeft_suffix (spaceSeqs.map List.reverse) l.length l.reverse
  set r := trimLeft (spaceSeqs.map List.reverse) l.length l.reverse with hr
  have hs : trimSpace s = r.reverse := rfl
  have hpre : r.reverse <+: l := by
    have := List.reverse_prefix.mpr h3
    rwa [List.reverse_reverse] at this
  have h4 : ∀ q ∈ spaceSeqs, ¬ q <+: r.reverse := fun q hq hp => h1 q hq (hp.trans hpre)
  rw [hs]
  unfold trimSpace
  rw [trimLeft_id h4]
  simp only [List.reverse_reverse, List.length_reverse]
  rw [trimLeft_id h2]

theorem trimLeft_removed (seqs : List Str) (n : Nat) (s : Str) :
    ∃ qs : List Str, (∀ q ∈ qs, q ∈ seqs) ∧ s = qs.flatten ++ trimLeft seqs n s := by
  induction n generalizing s with
  | zero => exact ⟨[], by simp, by simp [trimLeft]⟩
  | succ n ih =>
    simp only [trimLeft]
    split
    · exact ⟨[], by simp, by simp⟩
    · rename_i q hq
      obtain ⟨qs, h1, h2⟩ := ih (s.drop q.length)
      have hp : q <+: s := by simpa using List.find?_some hq
      refine ⟨q :: qs, ?_, ?_⟩
      · intro x hx
        rcases List.mem_cons.1 hx with rfl | hx
        · exact List.mem_of_find?_eq_some hq
        · exact h1 x hx
      · obtain ⟨t, rfl⟩ := hp
        rw [List.drop_left] at h2 ⊢
        rw [List.flatten_cons, List.append_assoc, ← h2]

/-- The characters which are spaces. -/
def SpecSpaces : List Char :=
  [9, 10, 11, 12, 13, 32, 0x85, 0xA0, 0x1680, 0x2000, 0x2001, 0x2002, 0x2003, 0x2004, 0x2005, 0x2006, 0x2007, 0x2008,
    0x2009, 0x200A, 0x2028, 0x2029, 0x202F, 0x205F, 0x3000].map Char.ofNat

/-- A text of spaces only. -/
def SpecBlank (a : Str) : Prop := ∃ l : List Char, (∀ c ∈ l, c ∈ SpecSpaces) ∧ a = l.flatMap String.utf8EncodeChar

theorem spaceSeqs_eq : spaceSeqs = SpecSpaces.map String.utf8EncodeChar := by decide +kernel

theorem blank_of_seqs (qs : List Str) (h : ∀ q ∈ qs, q ∈ spaceSeqs) : SpecBlank qs.flatten := by
  induction qs with
  | nil => exact ⟨[], by simp, rfl⟩
  | cons q qs ih =>
    obtain ⟨l, h1, h2⟩ := ih (fun x hx => h x (by simp [hx]))
    have hq := h q (by simp)
    rw [spaceSeqs_eq] at hq
    obtain ⟨c, hc, rfl⟩ := List.mem_map.1 hq
    refine ⟨c :: l, ?_, by simp [h2]⟩
    intro x hx
    rcases List.mem_cons.1 hx with rfl | hx
    · exact hc
    · exact h1 x hx

/-- C31: what is ignored around a text are all spaces in front of it and behind it, and nothing else. -/
theorem C31_trim (s : Str) : ∃ a b, s = a ++ trimSpace s ++ b ∧ SpecBlank a ∧ SpecBlank b ∧
    ∀ c ∈ SpecSpaces, ¬ String.utf8EncodeChar c <+: trimSpace s ∧ ¬ String.utf8EncodeChar c <:+ trimSpace s := by
  have hne : ∀ q ∈ spaceSeqs, q ≠ [] := by decide
  have hne' : ∀ q ∈ spaceSeqs.map List.reverse, q ≠ [] := by decide
  have d1 := trimLeft_done hne s.length s le_rfl
  obtain ⟨qs, h1, h2⟩ := trimLeft_removed spaceSeqs s.length s
  set l := trimLeft spaceSeqs s.length s with hl
  obtain ⟨qs', h1', h2'⟩ := trimLeft_removed (spaceSeqs.map List.reverse) l.length l.reverse
  have d2 := trimLeft_done hne' l.length l.reverse (by simp)
  have hs : trimSpace s = (trimLeft (spaceSeqs.map List.reverse) l.length l.reverse).reverse := rfl
  set r := trimLeft (spaceSeqs.map List.reverse) l.length l.reverse with hr
  have e : l = r.reverse ++ ((qs'.map List.reverse).reverse).flatten := by
    have := congrArg List.reverse h2'
    rw [List.reverse_reverse, List.reverse_append, List.reverse_flatten] at this
    exact this
  refine ⟨qs.flatten, _, ?_, blank_of_seqs qs h1, blank_of_seqs ((qs'.map List.reverse).reverse) ?_, ?_⟩
  · rw [hs, List.append_assoc, ← e]; exact h2
  · intro q hq
    rw [List.mem_reverse] at hq
    obtain ⟨x, hx, rfl⟩ := List.mem_map.1 hq
    obtain ⟨y, hy, rfl⟩ := List.mem_map.1 (h1' x hx)
    rwa [List.reverse_reverse]
  · intro c hc
    have hm : String.utf8EncodeChar c ∈ spaceSeqs := by rw [spaceSeqs_eq]; exact List.mem_map_of_mem hc
    rw [hs]
    refine ⟨fun hp => d1 _ hm (hp.trans (e ▸ List.prefix_append _ _)), fun hp => ?_⟩
    refine d2 _ (List.mem_map_of_mem hm) ?_
    have := List.reverse_prefix.2 hp
    rwa [List.reverse_reverse] at this

theorem toSpecific_trimmed (t : Str) (ht : trimSpace t = t) : ∃ u, SpecUnbraced t u ∧
    toSpecific t = parseSpecific u := by
  have hp : [openC] <+: t ↔ t.head? = some openC := by
    cases t <;> simp [eq_comm]
  have hsx : [closeC] <:+ t ↔ t.getLast? = some closeC := by
    rw [List.suffix_iff_eq_append, List.getLast?_eq_some_iff]
    constructor
    · intro h; exact ⟨_, h.symm⟩
    · rintro ⟨ys, rfl⟩; simp
  have lo : lit "{" = [openC] := by decide
  have lc : lit "}" = [closeC] := by decide
  unfold toSpecific
  rw [ht]
  by_cases ho : [openC] <+: t
  · obtain ⟨r, rfl⟩ := ho
    have e : stripOpen ([openC] ++ r) ([openC] ++ r) = .ok r := by
      unfold stripOpen; rw [if_pos (List.prefix_append _ _)]; rfl
    rw [e]
    by_cases hc : [closeC] <:+ [openC] ++ r
    · have hr : [closeC] <:+ r := by
        obtain ⟨w, hw⟩ := hc
        cases w with
        | nil => simp [openC, closeC] at hw
        | cons x w => simp at hw; exact ⟨w, hw.2⟩
      obtain ⟨w, rfl⟩ := hr
      refine ⟨w, ⟨lit "{", lit "}", by simp [lo, lc], .inl rfl, .inl rfl⟩, ?_⟩
      simp only [Out.bind_ok]
      rw [stripClose, if_pos hc, if_neg (by simp)]
      simp
    · refine ⟨r, ⟨lit "{", [], by simp [lo], .inl rfl, .inr ⟨rfl, by rwa [ne_eq, ← hsx]⟩⟩, ?_⟩
      simp only [Out.bind_ok]
      rw [stripClose, if_neg hc]; simp
  · have e : stripOpen t t = .ok t := by unfold stripOpen; rw [if_neg ho]
    rw [e]
    by_cases hc : [closeC] <:+ t
    · obtain ⟨w, rfl⟩ := id hc
      refine ⟨w, ⟨[], lit "}", by simp [lc], .inr ⟨rfl, by rwa [ne_eq, ← hp]⟩, .inl rfl⟩, ?_⟩
      simp only [Out.bind_ok]
      rw [stripClose, if_pos hc, if_neg (by simp)]
      simp
    · refine ⟨t, ⟨[], [], by simp, .inr ⟨rfl, by rwa [ne_eq, ← hp]⟩, .inr ⟨rfl, by rwa [ne_eq, ← hsx]⟩⟩, ?_⟩
      simp only [Out.bind_ok]
      rw [stripClose, if_neg hc]; simp

theorem toCardinality_cases (content : Str) :
    toCardinality content =
      if trimSpace content = lit "+" then .ok .nonZeroMultiple
      else if trimSpace content = lit "*" then .ok .zeroMultiple
      else if trimSpace content = lit "?" then .ok .optional
      else (do let s ← toSpecific (trimSpace content); .ok (.specific s)) := by
  have l1 : lit "+" = [plusC] := by decide
  have l2 : lit "*" = [starC] := by decide
  have l3 : lit "?" = [optC] := by decide
  rw [l1, l2, l3]
  simp [toCardinality, Builder.now]

/-- C31: `ToCardinality` never panics, whatever the text. -/
theorem C31_parse_no_panic (content : Str) : toCardinality content ≠ .panic := by
  rw [toCardinality_cases]
  split
  · simp
  split
  · simp
  split
  · simp
  obtain ⟨u, _, h⟩ := toSpecific_trimmed _ (trimSpace_idem content)
  rw [h]
  cases hp : parseSpecific u with
  | ok => simp
  | err => simp
  | panic => exact absurd hp (parseSpecific_no_panic u)

/-- C31: the language of cardinalities: exactly these texts are accepted, with these meanings.  Spaces around the text
and around the maximum are ignored; each brace is optional; numbers are taken modulo 2^64. -/
theorem C31_parse_iff (content : Str) (c : Card) : toCardinality content = .ok c ↔
    (trimSpace content = lit "+" ∧ c = .nonZeroMultiple) ∨
    (trimSpace content = lit "*" ∧ c = .zeroMultiple) ∨
    (trimSpace content = lit "?" ∧ c = .optional) ∨
    ∃ u, SpecUnbraced (trimSpace content) u ∧
      ((∃ n, commaC ∉ u ∧ atoi u = .ok n ∧ UInt64.ofInt n ≠ 0 ∧ c = .specific (.amount (UInt64.ofInt n))) ∨
       (∃ a b min, u = a ++ lit "," ++ b ∧ commaC ∉ a ∧ commaC ∉ b ∧ atoi a = .ok min ∧
         ((trimSpace b = [] ∧ c = .specific (.range ⟨UInt64.ofInt min, none⟩)) ∨
          (∃ max, atoi (trimSpace b) = .ok max ∧
            c = .specific (.range ⟨UInt64.ofInt min, some (UInt64.ofInt max)⟩))))) := by
  have lcomma : lit "," = [commaC] := by decide
  have spec : ∀ u, ((∃ n, commaC ∉ u ∧ atoi u = .ok n ∧ UInt64.ofInt n ≠ 0 ∧
        c = .specific (.amount (UInt64.ofInt n))) ∨
       (∃ a b min, u = a ++ lit "," ++ b ∧ commaC ∉ a ∧ commaC ∉ b ∧ atoi a = .ok min ∧
         ((trimSpace b = [] ∧ c = .specific (.range ⟨UInt64.ofInt min, none⟩)) ∨
          (∃ max, atoi (trimSpace b) = .ok max ∧
            c = .specific (.range ⟨UInt64.ofInt min, some (UInt64.ofInt max)⟩))))) ↔
      ∃ s, parseSpecific u = .ok s ∧ c = .specific s := by
    intro u
    rw [lcomma]
    constructor
    · rintro (⟨n, h1, h2, h3, rfl⟩ | ⟨a, b, min, h1, h2, h3, h4, ⟨h5, rfl⟩ | ⟨max, h5, rfl⟩⟩)
      · exact ⟨_, (parseSpecific_spec _ _).mpr (.inl ⟨n, h1, h2, h3, rfl⟩), rfl⟩
      · exact ⟨_, (parseSpecific_spec _ _).mpr (.inr ⟨a, b, min, h1, h2, h3, h4, .inl ⟨h5, rfl⟩⟩), rfl⟩
      · exact ⟨_, (parseSpecific_spec _ _).mpr (.inr ⟨a, b, min, h1, h2, h3, h4, .inr ⟨max, h5, rfl⟩⟩), rfl⟩
    · rintro ⟨s, hs, rfl⟩
      rcases (parseSpecific_spec _ _).mp hs with ⟨n, h1, h2, h3, rfl⟩ |
        ⟨a, b, min, h1, h2, h3, h4, ⟨h5, rfl⟩ | ⟨max, h5, rfl⟩⟩
      · exact .inl ⟨n, h1, h2, h3, rfl⟩
      · exact .inr ⟨a, b, min, h1, h2, h3, h4, .inl ⟨h5, rfl⟩⟩
      · exact .inr ⟨a, b, min, h1, h2, h3, h4, .inr ⟨max, h5, rfl⟩⟩
  simp only [spec]
  have uniq : ∀ t u u', SpecUnbraced t u → SpecUnbraced t u' → t.length ≠ 0 → u = u' := by
    have lo : lit "{" = [openC] := by decide
    have lc : lit "}" = [closeC] := by decide
    rintro t u u' ⟨o, c, e, ho, hc⟩ ⟨o', c', e', ho', hc'⟩ _
    have hoo : o = o' := by
      rcases ho with rfl | ⟨rfl, ho⟩ <;> rcases ho' with rfl | ⟨rfl, ho'⟩
      · rfl
      · exfalso; apply ho'; rw [e, lo]; rfl
      · exfalso; apply ho; rw [e', lo]; rfl
      · rfl
    have hcc : c = c' := by
      rcases hc with rfl | ⟨rfl, hc⟩ <;> rcases hc' with rfl | ⟨rfl, hc'⟩
      · rfl
      · exfalso; apply hc'; rw [e, lc]; simp only [List.getLast?_append, List.getLast?_singleton, Option.some_or]
      · exfalso; apply hc; rw [e', lc]; simp only [List.getLast?_append, List.getLast?_singleton, Option.some_or]
      · rfl
    subst hoo hcc
    rw [e] at e'
    simpa using e'
  have single : ∀ (ch : UInt8) (u : Str) (s : Specific), ch ≠ openC → ch ≠ closeC → atoi [ch] = .err →
      commaC ≠ ch → SpecUnbraced [ch] u → parseSpecific u ≠ .ok s := by
    intro ch u s h1 h2 h3 h4 hu hps
    have : u = [ch] := by
      refine uniq [ch] u [ch] hu ⟨[], [], by simp, .inr ⟨rfl, ?_⟩, .inr ⟨rfl, ?_⟩⟩ (by simp)
      · simpa using h1
      · simpa using h2
    subst this
    rcases (parseSpecific_spec _ _).mp hps with ⟨n, _, h, _⟩ | ⟨a, b, min, e, _⟩
    · rw [h3] at h; simp at h
    · have : commaC ∈ [ch] := by rw [e]; simp
      simp at this; exact h4 this
  have lp : lit "+" = [43] := by decide
  have ls : lit "*" = [42] := by decide
  have lq : lit "?" = [63] := by decide
  rw [toCardinality_cases, lp, ls, lq]
  by_cases h1 : trimSpace content = [43]
  · rw [if_pos h1, h1]
    simp only [Out.ok.injEq, true_and]
    constructor
    · rintro rfl; exact .inl rfl
    · rintro (h | ⟨h, _⟩ | ⟨h, _⟩ | ⟨u, hu, s, hs, _⟩)
      · exact h.symm
      · exact absurd h (by decide)
      · exact absurd h (by decide)
      · exact absurd hs (single 43 u s (by decide) (by decide) (by decide) (by decide) hu)
  rw [if_neg h1]
  by_cases h2 : trimSpace content = [42]
  · rw [if_pos h2, h2]
    simp only [Out.ok.injEq, true_and]
    constructor
    · rintro rfl; exact .inr (.inl rfl)
    · rintro (⟨h, _⟩ | h | ⟨h, _⟩ | ⟨u, hu, s, hs, _⟩)
      · exact absurd h (by decide)
      · exact h.symm
      · exact absurd h (by decide)
      · exact absurd hs (single 42 u s (by decide) (by decide) (by decide) (by decide) hu)
  rw [if_neg h2]
  by_cases h3 : trimSpace content = [63]
  · rw [if_pos h3, h3]
    simp only [Out.ok.injEq, true_and]
    constructor
    · rintro rfl; exact .inr (.inr (.inl rfl))
    · rintro (⟨h, _⟩ | ⟨h, _⟩ | h | ⟨u, hu, s, hs, _⟩)
      · exact absurd h (by decide)
      · exact absurd h (by decide)
      · exact h.symm
      · exact absurd hs (single 63 u s (by decide) (by decide) (by decide) (by decide) hu)
  rw [if_neg h3]
  obtain ⟨u, hu, e⟩ := toSpecific_trimmed _ (trimSpace_idem content)
  rw [e]
  simp only [h1, h2, h3, false_and, false_or, Out.bind_eq_ok, Out.ok.injEq]
  constructor
  · rintro ⟨s, hs, rfl⟩; exact ⟨u, hu, s, hs, rfl⟩
  · rintro ⟨u', hu', s, hs, rfl⟩
    by_cases ht : (trimSpace content).length = 0
    · exfalso
      have ht := List.length_eq_zero_iff.mp ht
      rw [ht] at hu'
      obtain ⟨o, c, e, _⟩ := hu'
      simp at e
      rw [e.2.1] at hs
      have : parseSpecific [] = .err := by decide +kernel
      rw [this] at hs; simp at hs
    · rw [uniq _ _ _ hu hu' ht]
      exact ⟨s, hs, rfl⟩

example : toCardinality (lit " {2, 5 }\n") = .ok (.specific (.range ⟨2, some 5⟩)) ∧
    toCardinality (lit "3") = .ok (.specific (.amount 3)) ∧ toCardinality (lit "{3") = .ok (.specific (.amount 3)) ∧
    toCardinality (lit "{ 3}") = .err := by decide +kernel

/-! ## C32 -/

/-- C32: no text denotes the mandatory cardinality and no text denotes the exact amount 0. -/
theorem C32_never_mandatory_or_zero (content : Str) (c : Card) (h : toCardinality content = .ok c) :
    c ≠ .mandatory ∧ c ≠ .specific (.amount 0) := by
  rw [C31_parse_iff] at h
  rcases h with ⟨_, rfl⟩ | ⟨_, rfl⟩ | ⟨_, rfl⟩ | ⟨u, _, ⟨n, _, _, h, rfl⟩ |
    ⟨a, b, min, _, _, _, _, ⟨_, rfl⟩ | ⟨max, _, rfl⟩⟩⟩ <;> simp
  exact h

/-- C32 (violation): every range whose minimum is above its maximum is accepted, although it allows no number of
repetitions at all. -/
theorem C32_empty_range_accepted (min max : UInt64) (h : max < min) (hb : min.toNat < 2 ^ 63) :
    ∃ c, toCardinality (lit "{" ++ itoaNat min.toNat ++ lit "," ++ itoaNat max.toNat ++ lit "}") = .ok c ∧
      ∀ n, c.isValid n = false := by
  have hlt := UInt64.lt_iff_toNat_lt.mp h
  refine ⟨.specific (.range ⟨min, some max⟩), ?_, ?_⟩
  · have := (C31_roundtrip_iff (.specific (.range ⟨min, some max⟩)) _ rfl).mpr ⟨hb, by omega⟩
    have lo : lit "{" = [openC] := by decide
    have lc : lit "}" = [closeC] := by decide
    have lcomma : lit "," = [commaC] := by decide
    simpa [specificStr, lo, lc, lcomma] using this
  · intro n
    by_contra hn
    have := (C30_isValid_iff _ n).mp (by simpa using hn)
    simp only [SpecAllows] at this
    omega

/-- C32 (violation): a negative exact amount is accepted and means a huge number of repetitions. -/
theorem C32_negative_accepted (k : Nat) (h0 : 0 < k) (hk : k ≤ 2 ^ 63) :
    ∃ n, toCardinality (lit "{-" ++ itoaNat k ++ lit "}") = .ok (.specific (.amount n)) ∧
      n.toNat = 2 ^ 64 - k := by
  have ha : atoi (45 :: itoaNat k) = .ok (-(k : Int)) := by
    have := atoi_itoa (-(k : Int)) (by omega) (by omega)
    have h0' : (-(k : Int) < 0) := by omega
    simpa [itoa, h0', h0] using this
  have e : UInt64.ofInt (-(k : Int)) = UInt64.ofNat (2 ^ 64 - k) := by
    rw [UInt64.ofInt]
    congr 1
    omega
  have ev : (UInt64.ofInt (-(k : Int))).toNat = 2 ^ 64 - k := by rw [e]; simp; omega
  refine ⟨UInt64.ofInt (-(k : Int)), ?_, ev⟩
  have l1 : lit "{-" ++ itoaNat k ++ lit "}" = [openC] ++ (45 :: itoaNat k) ++ [closeC] := by
    have l2 : lit "{-" = [openC, 45] := by decide
    have lc : lit "}" = [closeC] := by decide
    rw [l2, lc]; rfl
  rw [l1, C31_parse_iff]
  right; right; right
  have ht : trimSpace ([openC] ++ (45 :: itoaNat k) ++ [closeC]) = [openC] ++ (45 :: itoaNat k) ++ [closeC] := by
    apply trimSpace_id
    · intro c hc; simp at hc; subst hc; simp [Visible, openC]
    · intro c hc; rw [getLast_snoc _ _ _ hc]; simp [Visible, closeC]
  refine ⟨45 :: itoaNat k, ⟨[openC], [closeC], ht, .inl (by decide), .inl (by decide)⟩, .inl ⟨-(k : Int), ?_, ha, ?_, rfl⟩⟩
  · simp only [List.mem_cons, not_or]
    exact ⟨by decide, digits_not (by decide)⟩
  · intro h
    rw [h] at ev
    simp at ev; omega

/-- C32: the builder never returns a specific cardinality with the amount 0, and returns any range. -/
theorem C32_builder (a : Option UInt64) (r : Option Range) (s : Specific) : specificNow a r = .ok s ↔
    (∃ n, a = some n ∧ n ≠ 0 ∧ s = .amount n) ∨ (a = none ∧ ∃ x, r = some x ∧ s = .range x) := by
  have h0 : ∀ m : UInt64, m ≤ 0 ↔ m = 0 := by
    intro m
    constructor
    · intro h; exact UInt64.le_antisymm h (UInt64.zero_le)
    · rintro rfl; exact UInt64.le_refl _
  cases a with
  | none => cases r <;> simp [specificNow, eq_comm]
  | some a =>
    simp only [specificNow, h0]
    by_cases h : a = 0
    · simp [h]
    · simp [h, eq_comm]

example : ∃ c, toCardinality (lit "{5,2}") = .ok c ∧ ∀ n, c.isValid n = false :=
  C32_empty_range_accepted 5 2 (by decide) (by decide)

end Verif.Cardinality
