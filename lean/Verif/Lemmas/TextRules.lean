import Verif.Lemmas.TextTokens4
import Verif.Spec.TextRules

/-! Helper lemmas: reading rules. -/

namespace Verif.Text
open Verif.Regex Verif.Patterns Verif.Cardinality Verif.Lexer

/-- The parts with the separator between them. -/
def joined (sep : Str) (ps : List Str) : Str := (ps.intersperse sep).flatten

theorem joined_cons {sep p : Str} {ps : List Str} (h : ps ≠ []) : joined sep (p :: ps) = p ++ sep ++ joined sep ps := by
  cases ps with
  | nil => exact absurd rfl h
  | cons q ps => simp [joined]

theorem split_joined {c : UInt8} {ds : Str} {ps : List Str} (hne : ps ≠ []) (h : ∀ p ∈ ps, ¬ (c :: ds) <:+: p ++ (c :: ds).dropLast) :
    splitSep c ds (joined (c :: ds) ps) = ps := by
  induction ps with
  | nil => exact absurd rfl hne
  | cons p ps ih =>
    cases ps with
    | nil =>
      simp only [joined, List.intersperse_singleton, List.flatten_cons, List.flatten_nil, List.append_nil]
      exact splitSep_none (fun hi => h p (by simp) (hi.trans ⟨[], (c :: ds).dropLast, by simp⟩))
    | cons q ps =>
      rw [joined_cons (by simp), splitSep_cons (by simp)]
      exact ⟨_, rfl, h p List.mem_cons_self, ih (by simp) (fun x hx => h x (List.mem_cons_of_mem _ hx))⟩

theorem replaceAll_joined {c : UInt8} {ds new : Str} {ps : List Str} (hne : ps ≠ []) (h : ∀ p ∈ ps, ¬ (c :: ds) <:+: p ++ (c :: ds).dropLast) :
    replaceAll c ds new (joined (c :: ds) ps) = joined new ps := by
  unfold replaceAll
  rw [split_joined hne h]
  rfl

theorem replaceAll_none {c : UInt8} {ds new s : Str} (h : c ∉ s) : replaceAll c ds new s = s := by
  unfold replaceAll
  rw [splitSep_none (fun hi => h (hi.subset (by simp)))]
  simp

/-- The parts of a text between its quotes. -/
def parts : Str → List Str
  | [] => [[]]
  | c :: s => if c = 34 then [] :: parts s else match parts s with
    | p :: ps => (c :: p) :: ps
    | [] => [[c]]

theorem parts_ne (s : Str) : parts s ≠ [] := by
  cases s with
  | nil => simp [parts]
  | cons c s =>
    simp only [parts]
    split
    · simp
    · split <;> simp

theorem parts_mem {s : Str} : ∀ p ∈ parts s, 34 ∉ p ∧ ∀ x ∈ p, x ∈ s := by
  induction s with
  | nil => simp [parts]
  | cons c s ih =>
    intro p hp
    simp only [parts] at hp
    split at hp
    · rcases List.mem_cons.1 hp with rfl | hp
      · simp
      · exact ⟨(ih p hp).1, fun x hx => List.mem_cons_of_mem _ ((ih p hp).2 x hx)⟩
    · rename_i hc
      cases hps : parts s with
      | nil => exact absurd hps (parts_ne s)
      | cons q ps =>
        rw [hps] at hp
        rcases List.mem_cons.1 hp with rfl | hp
        · have := ih q (by rw [hps]; simp)
          refine ⟨?_, ?_⟩
          · intro hm
            rcases List.mem_cons.1 hm with h | h
            · exact hc h.symm
            · exact this.1 h
          · intro x hx
            rcases List.mem_cons.1 hx with rfl | hx
            · simp
            · exact List.mem_cons_of_mem _ (this.2 x hx)
        · have := ih p (by rw [hps]; simp [hp])
          exact ⟨this.1, fun x hx => List.mem_cons_of_mem _ (this.2 x hx)⟩

theorem joined_head (sep : Str) (c : UInt8) (p : Str) (ps : List Str) : joined sep ((c :: p) :: ps) = c :: joined sep (p :: ps) := by
  cases ps with
  | nil => simp [joined]
  | cons q ps => simp [joined]

theorem parts_joined (s : Str) : joined [34] (parts s) = s ∧ joined [92, 34] (parts s) = escape s := by
  induction s with
  | nil => simp [parts, joined, escape]
  | cons c s ih =>
    simp only [parts, escape]
    split
    · rename_i hc
      rw [joined_cons (parts_ne s), joined_cons (parts_ne s), ih.1, ih.2, hc]
      simp
    · cases hps : parts s with
      | nil => exact absurd hps (parts_ne s)
      | cons q ps =>
        rw [hps] at ih
        simp only
        rw [joined_head, joined_head, ih.1, ih.2]
        simp

theorem count_infix {d : UInt8} {n k : Nat} {p : Str} (h : d ∉ p) (hk : k < n) : ¬ List.replicate n d <:+: p ++ List.replicate k d := by
  intro hi
  have h1 := hi.sublist.count_le d
  have h2 : p.count d = 0 := List.count_eq_zero.2 h
  rw [List.count_append, h2] at h1
  simp at h1
  omega

/-- Texts around joined parts. -/
theorem wrap_joined (pre post : Str) {l : List Str} (hne : l ≠ []) : ∃ l', l' ≠ [] ∧ (∀ sep, pre ++ joined sep l ++ post = joined sep l') ∧
    ∀ x ∈ l', ∀ z ∈ x, z ∈ pre ∨ z ∈ post ∨ ∃ y ∈ l, z ∈ y := by
  obtain ⟨p, ps, rfl⟩ : ∃ p ps, l = p :: ps := by
    cases l with
    | nil => exact absurd rfl hne
    | cons p ps => exact ⟨p, ps, rfl⟩
  have key : ∀ (q : Str) (sep : Str), q ++ joined sep (p :: ps) = joined sep ((q ++ p) :: ps) := by
    intro q sep
    induction q with
    | nil => rfl
    | cons x q ih => rw [List.cons_append, List.cons_append, joined_head, ih]
  have keyr : ∀ (l : List Str), l ≠ [] → ∃ l', l' ≠ [] ∧ (∀ sep, joined sep l ++ post = joined sep l') ∧ ∀ x ∈ l', (∃ y ∈ l, x = y ∨ x = y ++ post) := by
    intro l
    induction l with
    | nil => intro h; exact absurd rfl h
    | cons x l ih =>
      intro _
      cases l with
      | nil => exact ⟨[x ++ post], by simp, by simp [joined], by simp⟩
      | cons y l =>
        obtain ⟨l', q1, q2, q3⟩ := ih (by simp)
        refine ⟨x :: l', by simp, ?_, ?_⟩
        · intro sep
          rw [joined_cons (by simp), joined_cons q1, ← q2 sep]
          simp
        · intro z hz
          rcases List.mem_cons.1 hz with rfl | hz
          · exact ⟨z, by simp, .inl rfl⟩
          · obtain ⟨w, hw, hw'⟩ := q3 z hz
            exact ⟨w, List.mem_cons_of_mem _ hw, hw'⟩
  obtain ⟨l', q1, q2, q3⟩ := keyr ((pre ++ p) :: ps) (by simp)
  refine ⟨l', q1, fun sep => by rw [key, q2], ?_⟩
  intro x hx z hz
  have hmem : ∀ y ∈ (pre ++ p) :: ps, z ∈ y → z ∈ pre ∨ z ∈ post ∨ ∃ y ∈ p :: ps, z ∈ y := by
    intro y hy hm
    rcases List.mem_cons.1 hy with rfl | hy
    · rcases List.mem_append.1 hm with hm | hm
      · exact .inl hm
      · exact .inr (.inr ⟨p, by simp, hm⟩)
    · exact .inr (.inr ⟨y, by simp [hy], hm⟩)
  obtain ⟨y, hy, rfl | rfl⟩ := q3 x hx
  · exact hmem _ hy hz
  · rcases List.mem_append.1 hz with hz | hz
    · exact hmem y hy hz
    · exact .inr (.inl hz)

/-- Escaping and reading a quoted constant. -/
theorem escaped_read {pre c post : Str} (h1 : 92 ∉ pre) (h2 : 92 ∉ post) (h3 : 92 ∉ c) :
    replaceAll backslashC [quoteC] hashes (pre ++ escape c ++ post) = pre ++ joined hashes (parts c) ++ post := by
  rw [← (parts_joined c).2]
  obtain ⟨l', q1, q2, q3⟩ := wrap_joined pre post (parts_ne c)
  rw [q2 [92, 34], q2 hashes]
  refine replaceAll_joined (c := backslashC) (ds := [quoteC]) q1 ?_
  intro x hx hi
  have hno : 92 ∉ x := by
    intro hm
    rcases q3 x hx _ hm with h | h | ⟨y, hy, h⟩
    · exact h1 h
    · exact h2 h
    · exact h3 ((parts_mem y hy).2 _ h)
  -- the backslash is the last character
  have hi' : [backslashC, quoteC] <:+: x ++ [backslashC] := hi
  obtain ⟨u, v, e⟩ := hi'
  have e' : (u ++ [backslashC, quoteC]) ++ v = x ++ [backslashC] := e
  rcases List.eq_nil_or_concat v with rfl | ⟨v', z, rfl⟩
  · have := congrArg List.getLast? e'
    simp [backslashC, quoteC] at this
  · rw [List.concat_eq_append, ← List.append_assoc] at e'
    have := List.append_inj_left' e' rfl
    apply hno
    rw [← this]
    simp [backslashC]

theorem hashes_read_wrap {pre c post : Str} (h1 : 35 ∉ pre) (h2 : 35 ∉ post) (h3 : 35 ∉ c) :
    replaceAll hashC [hashC, hashC] [quoteC] (pre ++ joined hashes (parts c) ++ post) = pre ++ c ++ post := by
  obtain ⟨l', q1, q2, q3⟩ := wrap_joined pre post (parts_ne c)
  have := replaceAll_joined (c := hashC) (ds := [hashC, hashC]) (new := [quoteC]) q1 (by
    intro x hx
    refine count_infix (d := hashC) (n := 3) (k := 2) (fun hm => ?_) (by omega)
    rcases q3 x hx _ hm with h | h | ⟨y, hy, h⟩
    · exact h1 h
    · exact h2 h
    · exact h3 ((parts_mem y hy).2 _ h))
  rw [q2 hashes]
  refine this.trans ?_
  rw [← q2, show joined [quoteC] (parts c) = c from (parts_joined c).1]

theorem hashes_read {c : Str} (h : 35 ∉ c) : replaceAll hashC [hashC, hashC] [quoteC] (joined hashes (parts c)) = c := by
  simpa using hashes_read_wrap (pre := []) (post := []) (c := c) (by simp) (by simp) h

theorem hashed_free {c : Str} {d : UInt8} (h : d ∉ c) (hd : d ≠ 35) : d ∉ joined hashes (parts c) := by
  have key : ∀ l : List Str, (∀ p ∈ l, d ∉ p) → d ∉ joined hashes l := by
    intro l
    induction l with
    | nil => simp [joined]
    | cons p l ih =>
      intro hp
      cases l with
      | nil => simpa [joined] using hp
      | cons q l =>
        rw [joined_cons (by simp)]
        intro hm
        simp only [List.mem_append] at hm
        rcases hm with (hm | hm) | hm
        · exact hp p (by simp) hm
        · simp [hashes, hashC] at hm; exact hd hm
        · exact ih (fun x hx => hp x (List.mem_cons_of_mem _ hx)) hm
  exact key _ (fun p hp hm => h ((parts_mem p hp).2 _ hm))

theorem hashed_quote (c : Str) : 34 ∉ joined hashes (parts c) := by
  have key : ∀ l : List Str, (∀ p ∈ l, 34 ∉ p) → 34 ∉ joined hashes l := by
    intro l
    induction l with
    | nil => simp [joined]
    | cons p l ih =>
      intro hp
      cases l with
      | nil => simpa [joined] using hp
      | cons q l =>
        rw [joined_cons (by simp)]
        intro hm
        simp only [List.mem_append] at hm
        rcases hm with (hm | hm) | hm
        · exact hp p (by simp) hm
        · simp [hashes, hashC] at hm
        · exact ih (fun x hx => hp x (List.mem_cons_of_mem _ hx)) hm
  exact key _ (fun p hp => (parts_mem p hp).1)

/-! ### Bodies -/

theorem noQuote {s : Str} (h : 34 ∉ s) : ∀ c ∈ s, noneOf [quoteC] c = true := by
  intro c hc
  rw [noneOf_iff]
  intro hm
  simp at hm; subst hm
  exact h hc

/-- The constant of a body. -/
theorem element_quoted {ps : PatternSet} {pre k post content : Str} (hpre : Blank pre) (hk : 34 ∉ k)
    (hc : replaceAll backslashC [quoteC] hashes content = pre ++ [quoteC] ++ k ++ [quoteC] ++ post) :
    ruleElement content ps = (
      let constant := replaceAll hashC [hashC, hashC] [quoteC] k
      let code := replaceAll hashC [hashC, hashC] [quoteC] (pre ++ [quoteC] ++ k ++ [quoteC])
      if code = [] then .err else .ok (.constant constant, code)) := by
  have hY := y_seq (y_opt_some (y_grp (n := 1) (y_star (p := noneOf [quoteC]) (u := pre) (v := quoteC :: (k ++ (quoteC :: post)))
      (noQuote (blank_free hpre (by decide))) (by simp [noneOf]))))
    (y_seq (y_opt_some (y_grp (n := 2) (y_seq (y_reC (c := quoteC)) (y_seq (y_grp (n := 3) (y_star (p := noneOf [quoteC]) (u := k) (v := quoteC :: post)
      (noQuote hk) (by simp [noneOf]))) (y_seq (y_reC (c := quoteC)) (y_eps post)))))) (y_eps post))
  unfold ruleElement
  simp only
  have hf := find_zero hY
  rw [hc, show pre ++ [quoteC] ++ k ++ [quoteC] ++ post = pre ++ quoteC :: (k ++ quoteC :: post) by simp]
  have hf' : find reRuleElement (pre ++ quoteC :: (k ++ quoteC :: post)) = _ := hf
  rw [hf']
  have ht : trimSpace pre = [] := by simpa using trimSpace_pad (a := pre) (t := []) (b := []) hpre (by intro c hc; simp at hc) (by simp) (by simp)
  simp [group_eq, look_cons, ht]

theorem body_constant {ps : PatternSet} {pre c post : Str} (h : (BodyT.constant pre c post).Ok ps) :
    ruleElement (BodyT.constant pre c post).text ps = .ok (.constant c, (BodyT.constant pre c post).code) := by
  obtain ⟨h1, h2, h3, h4, h5⟩ := h
  have hq : lit "\"" = [quoteC] := by decide
  have e := escaped_read (pre := pre ++ [quoteC]) (c := c) (post := [quoteC] ++ post)
    (by intro hm; rcases List.mem_append.1 hm with hm | hm
        · exact blank_free h1 (by decide) hm
        · simp [quoteC] at hm)
    (by intro hm; rcases List.mem_append.1 hm with hm | hm
        · simp [quoteC] at hm
        · exact blank_free h2 (by decide) hm) h5
  have e2 := hashes_read_wrap (pre := pre ++ [quoteC]) (c := c) (post := [quoteC])
    (by intro hm; rcases List.mem_append.1 hm with hm | hm
        · exact blank_free h1 (by decide) hm
        · simp [quoteC] at hm) (by simp [quoteC]) h4
  rw [element_quoted (pre := pre) (k := joined hashes (parts c)) (post := post) h1 (hashed_quote c) (by
    rw [show (BodyT.constant pre c post).text = pre ++ [quoteC] ++ escape c ++ ([quoteC] ++ post) by simp [BodyT.text, hq]]
    rw [e]; simp)]
  simp only
  rw [hashes_read h4, e2]
  rw [if_neg (by simp)]
  simp [BodyT.code, hq]

theorem words_chars {l : List Str} (h : ∀ n ∈ l, PatternName n) : ∀ c ∈ words l, LowerLetter c ∨ c = 95 ∨ c = 32 := by
  induction l with
  | nil => simp [words]
  | cons n l ih =>
    have hn : ∀ c ∈ n, LowerLetter c ∨ c = 95 ∨ c = 32 := by
      obtain ⟨d, u, rfl, hd, hu⟩ := h n List.mem_cons_self
      intro c hc
      rcases List.mem_cons.1 hc with rfl | hc
      · exact .inl hd
      · have := hu c hc; tauto
    cases l with
    | nil => exact hn
    | cons q l =>
      intro c hc
      simp only [words, List.mem_append] at hc
      rcases hc with (hc | hc) | hc
      · exact hn c hc
      · rw [show lit " " = [32] by decide] at hc; simp at hc; tauto
      · exact ih (fun x hx => h x (List.mem_cons_of_mem _ hx)) c hc

theorem words_split {l : List Str} (hne : l ≠ []) (h : ∀ n ∈ l, PatternName n) : splitSep 32 [] (words l) = l := by
  have e : words l = joined [32] l := by
    clear h
    induction l with
    | nil => exact absurd rfl hne
    | cons n l ih =>
      cases l with
      | nil => simp [words, joined]
      | cons q l => rw [joined_cons (by simp), ← ih (by simp)]; rfl
  rw [e]
  refine split_joined hne ?_
  intro p hp hi
  simp only [List.dropLast_singleton, List.append_nil] at hi
  rw [mem_of_infix_single] at hi
  obtain ⟨d, u, rfl, hd, hu⟩ := h p hp
  rcases List.mem_cons.1 hi with rfl | hi
  · simp [LowerLetter] at hd
  · have := hu 32 hi
    simp [LowerLetter] at this

theorem words_head {l : List Str} (hne : l ≠ []) (h : ∀ n ∈ l, PatternName n) : ∃ c u, words l = c :: u ∧ LowerLetter c := by
  cases l with
  | nil => exact absurd rfl hne
  | cons n l =>
    obtain ⟨d, u, rfl, hd, hu⟩ := h n List.mem_cons_self
    cases l with
    | nil => exact ⟨d, u, rfl, hd⟩
    | cons q l => exact ⟨d, u ++ lit " " ++ words (q :: l), rfl, hd⟩

theorem removeFirst_prefix {a b : Str} (ha : a ≠ []) : removeFirst a (a ++ b) = b := by
  have : strIndex a (a ++ b) = some 0 := by
    rw [strIndex_some]
    exact ⟨by omega, by simp, by intro i hi; omega⟩
  unfold removeFirst
  rw [this]
  simp

theorem y_bracket {inner names rest : Str} (h1 : Blank inner) (h2 : Stops ws (names ++ closeSq :: rest)) (h3 : closeSq ∉ names) :
    Y reRulePattern ([openSq] ++ inner ++ names ++ [closeSq] ++ rest) ⟨[openSq] ++ inner ++ names ++ [closeSq], rest, [(1, names)]⟩ := by
  have hn : ∀ c ∈ names, noneOf [closeSq] c = true := by
    intro c hc; rw [noneOf_iff]; intro hm; simp at hm; subst hm; exact h3 hc
  have := y_seq (y_reC (c := openSq) (s := inner ++ (names ++ closeSq :: rest))) (y_seq (y_star (blank_ws h1) h2)
    (y_seq (y_grp (n := 1) (y_star hn (by simp [noneOf] : Stops (noneOf [closeSq]) (closeSq :: rest))))
    (y_seq (y_star (p := ws) (u := []) (by simp) (by rw [stops_cons]; decide : Stops ws (closeSq :: rest))) (y_seq (y_reC (c := closeSq) (s := rest)) (y_eps rest)))))
  rw [show [openSq] ++ inner ++ names ++ [closeSq] ++ rest = openSq :: (inner ++ (names ++ closeSq :: rest)) by simp]
  refine Eq.trans this ?_
  simp

theorem body_pattern {ps : PatternSet} {pre inner gap post : Str} {names : List Str} {card : Card} (h : (BodyT.pattern pre inner names gap card post).Ok ps) :
    ∃ c, ruleElement (BodyT.pattern pre inner names gap card post).text ps = .ok (c, (BodyT.pattern pre inner names gap card post).code) ∧
      BodyShows ps (.pattern pre inner names gap card post) c := by
  obtain ⟨h1, h2, h3, h4, h5, h6, h7⟩ := h
  have hnames : ∀ n ∈ names, PatternName n := fun n hn => (h6 n hn).1
  have ho : lit "[" = [openSq] := by decide
  have hcl : lit "]" = [closeSq] := by decide
  obtain ⟨hk1, hk2⟩ := toCardinality_text h7
  have hkc : ∀ c ∈ cardText (some card), c = openC ∨ c = closeC ∨ c = commaC ∨ c = plusC ∨ c = starC ∨ c = optC ∨ (48 ≤ c.toNat ∧ c.toNat ≤ 57) := by
    intro c hc
    cases card with
    | mandatory => simp [cardText] at hc
    | optional => rw [show cardText (some .optional) = [optC] by decide] at hc; simp at hc; tauto
    | nonZeroMultiple => rw [show cardText (some .nonZeroMultiple) = [plusC] by decide] at hc; simp at hc; tauto
    | zeroMultiple => rw [show cardText (some .zeroMultiple) = [starC] by decide] at hc; simp at hc; tauto
    | specific q =>
      simp only [cardText] at hc
      rw [specificStr_body] at hc
      simp only [List.mem_cons, List.mem_append, List.not_mem_nil, or_false] at hc
      rcases hc with hc | hc | hc
      · tauto
      · have := body_chars q c hc; tauto
      · tauto
  generalize hT : lit "[" ++ inner ++ words names ++ lit "]" ++ gap ++ cardText (some card) = T
  have hTm : ∀ d, d = 92 ∨ d = 34 → d ∉ T := by
    intro d hd hm
    rw [← hT, ho, hcl] at hm
    simp only [List.mem_append, List.mem_singleton] at hm
    rcases hm with ((((hm | hm) | hm) | hm) | hm) | hm
    · rcases hd with rfl | rfl <;> revert hm <;> decide
    · exact blank_free h2 (by rcases hd with rfl | rfl <;> decide) hm
    · have := words_chars hnames d hm
      rcases hd with rfl | rfl <;> simp [LowerLetter] at this
    · rcases hd with rfl | rfl <;> revert hm <;> decide
    · exact blank_free h3 (by rcases hd with rfl | rfl <;> decide) hm
    · have := hkc d hm
      rcases hd with rfl | rfl <;> simp [openC, closeC, commaC, plusC, starC, optC] at this
  have hfree : ∀ d, d = 92 ∨ d = 34 → d ∉ pre ++ T ++ post := by
    intro d hd hm
    have hb : d ≠ 32 ∧ d ≠ 9 ∧ d ≠ 13 ∧ d ≠ 10 := by rcases hd with rfl | rfl <;> decide
    simp only [List.mem_append] at hm
    rcases hm with (hm | hm) | hm
    · exact blank_free h1 hb hm
    · exact hTm d hd hm
    · exact blank_free h4 hb hm
  have hhead : ∀ c ∈ T.head?, Visible c := by
    rw [← hT, ho]; simp [Visible, openSq]
  have hlast : ∀ c ∈ T.getLast?, Visible c := by
    intro c hc
    rw [← hT, List.getLast?_append] at hc
    cases hl : (cardText (some card)).getLast? with
    | none => simp at hl; exact absurd hl hk1
    | some z =>
      rw [hl] at hc; simp at hc; subst hc
      have := hkc z (List.mem_of_mem_getLast? hl)
      rcases this with rfl | rfl | rfl | rfl | rfl | rfl | h
      all_goals first
        | (unfold Visible; omega)
        | simp [Visible, openC, closeC, commaC, plusC, starC, optC]
  have htrim := trimSpace_pad h1 h4 hhead hlast
  have hTne : T ≠ [] := by rw [← hT, ho]; simp
  -- the pattern
  obtain ⟨c, u, hw1, hw2⟩ := words_head h5 hnames
  have hm := y_bracket (inner := inner) (names := words names) (rest := gap ++ cardText (some card)) h2
    (by rw [hw1]; simp only [List.cons_append, stops_cons]; exact not_blank (.inl hw2))
    (by intro hm; have := words_chars hnames _ hm; simp [LowerLetter, closeSq] at this)
  have hT' : [openSq] ++ inner ++ words names ++ [closeSq] ++ (gap ++ cardText (some card)) = T := by rw [← hT, ho, hcl]; simp
  rw [hT'] at hm
  have hpat : ∃ l, rulePattern T ps = .ok (.pattern l card) ∧ List.Forall₂ (fun n p => ps.find n = .ok p) names l := by
    have hl : ∃ l, mapOut ps.find names = .ok l ∧ List.Forall₂ (fun n p => ps.find n = .ok p) names l := by
      clear hT hTm hm hw1 hT' h5 hnames
      induction names with
      | nil => exact ⟨[], rfl, .nil⟩
      | cons n names ih =>
        obtain ⟨l, q1, q2⟩ := ih (fun x hx => h6 x (List.mem_cons_of_mem _ hx))
        obtain ⟨_, p, hp⟩ := h6 n List.mem_cons_self
        exact ⟨p :: l, by simp only [mapOut, hp, q1, Out.bind_ok]; rfl, .cons hp q2⟩
    obtain ⟨l, q1, q2⟩ := hl
    have hlne : l ≠ [] := by rintro rfl; cases q2; exact h5 rfl
    refine ⟨l, ?_, q2⟩
    unfold rulePattern
    rw [find_zero hm]
    simp only [M.group, List.find?_cons, decide_true, Option.map_some, Option.getD_some]
    rw [words_split h5 hnames, q1]
    have hrem : removeFirst ([openSq] ++ inner ++ words names ++ [closeSq]) T = gap ++ cardText (some card) := by
      rw [← hT']; exact removeFirst_prefix (by simp)
    rw [hrem]
    have hcard : toCardinality (gap ++ cardText (some card)) = .ok card := by
      have hidem : ∀ s, toCardinality (trimSpace s) = toCardinality s := by
        intro s
        rw [toCardinality_cases, toCardinality_cases s, trimSpace_idem]
      have hkl : ∀ c ∈ (cardText (some card)).getLast?, Visible c := by
        intro c hc
        apply hlast c
        rw [← hT, List.getLast?_append]
        rw [show (cardText (some card)).getLast? = some c from hc]
        rfl
      have hkh : ∀ c ∈ (cardText (some card)).head?, Visible c := by
        intro c hc
        have := hkc c (List.mem_of_mem_head? hc)
        rcases this with rfl | rfl | rfl | rfl | rfl | rfl | h
        all_goals first
          | (unfold Visible; omega)
          | simp [Visible, openC, closeC, commaC, plusC, starC, optC]
      have : trimSpace (gap ++ cardText (some card)) = cardText (some card) := by
        simpa using trimSpace_pad (b := []) h3 (by intro c hc; simp at hc) hkh hkl
      rw [← hidem, this, hk2]
    rw [hcard]
    cases l with
    | nil => exact absurd rfl hlne
    | cons p l => rfl
  obtain ⟨l, hp1, hp2⟩ := hpat
  refine ⟨.pattern l card, ?_, rfl, hp2⟩
  have e : (BodyT.pattern pre inner names gap card post).text = pre ++ T ++ post := by simp only [BodyT.text]; rw [hT]
  have hY := y_seq (y_opt_some (y_grp (n := 1) (y_star (p := noneOf [quoteC]) (u := pre ++ T ++ post) (v := [])
      (noQuote (hfree 34 (.inr rfl))) (by simp))))
    (y_seq (y_opt_none (f_grp (n := 2) (f_seq_left (f_reC (c := quoteC) (by simp)) : F (.all [reC quoteC, .grp 3 (.star (noneOf [quoteC])), reC quoteC]) []))) (y_eps []))
  have hf := find_zero hY
  rw [List.append_nil] at hf
  unfold ruleElement
  simp only
  rw [e, replaceAll_none (c := backslashC) (hfree 92 (.inl rfl))]
  have hf' : find reRuleElement (pre ++ T ++ post) = _ := hf
  rw [hf']
  simp only [M.group, List.find?_cons, decide_true, Option.map_some, Option.getD_some, List.cons_append]
  rw [htrim, if_pos hTne, hp1]
  simp only [Out.bind_ok, List.append_nil]
  rw [if_neg (by simp [hTne])]
  simp only [BodyT.code, e]

end Verif.Text
