import Verif.Lemmas.TextBase

/-! Helper lemmas: how the parts of a line of a token are matched. -/

namespace Verif.Text
open Verif.Regex Verif.Patterns Verif.Cardinality Verif.Lexer

theorem y_token {n v : Str} (hn : TokenName n) (hv : Stops letter v) : Y reToken (n ++ v) ⟨n, v, []⟩ := by
  obtain ⟨c, u, rfl, hc, hu⟩ := hn
  simpa [reToken] using y_seq (y_chr (s := u ++ v) (lower_iff.2 hc)) (y_star (fun d hd => letter_iff.2 (hu d hd)) hv)

theorem f_token {s : Str} (h : Stops lower s) : F reToken s := by
  refine f_seq_left ?_
  cases s with
  | nil => rfl
  | cons c s => exact f_chr (by simpa using h)

theorem y_rule {n v : Str} (hn : RuleName n) (hv : Stops upperU v) : Y reRule (n ++ v) ⟨n, v, []⟩ := by
  obtain ⟨h1, h2⟩ := hn
  cases n with
  | nil => exact absurd rfl h1
  | cons c u => exact y_plus (upperU_iff.2 (h2 c List.mem_cons_self)) (fun d hd => upperU_iff.2 (h2 d (List.mem_cons_of_mem _ hd))) hv

theorem f_rule {s : Str} (h : Stops upperU s) : F reRule s := by
  refine f_seq_left ?_
  cases s with
  | nil => rfl
  | cons c s => exact f_chr (by simpa using h)

theorem f_reC {c : UInt8} {s : Str} (h : ∀ x ∈ s.head?, x ≠ c) : F (reC c) s := by
  cases s with
  | nil => rfl
  | cons x s => exact f_chr (by simpa using h x (by simp))

theorem y_reC {c : UInt8} {s : Str} : Y (reC c) (c :: s) ⟨[c], s, []⟩ := y_chr (by simp)

/-! ### Specific cardinalities -/

/-- What is between the braces. -/
def specificBody : Specific → Str
  | .amount n => itoaNat n.toNat
  | .range ⟨min, some max⟩ => itoaNat min.toNat ++ [commaC] ++ itoaNat max.toNat
  | .range ⟨min, none⟩ => itoaNat min.toNat ++ [commaC]

theorem specificStr_body (s : Specific) : specificStr s = openC :: (specificBody s ++ [closeC]) := by
  rcases s with n | ⟨min, _ | max⟩ <;> simp [specificStr, specificBody]

theorem body_chars (s : Specific) : ∀ c ∈ specificBody s, (48 ≤ c.toNat ∧ c.toNat ≤ 57) ∨ c = commaC := by
  intro c hc
  rcases s with n | ⟨min, _ | max⟩ <;> simp only [specificBody, List.mem_append, List.mem_singleton] at hc
  · exact .inl (itoaNat_digits _ c hc)
  · rcases hc with hc | hc
    · exact .inl (itoaNat_digits _ c hc)
    · exact .inr hc
  · rcases hc with (hc | hc) | hc
    · exact .inl (itoaNat_digits _ c hc)
    · exact .inr hc
    · exact .inl (itoaNat_digits _ c hc)

theorem body_ne (s : Specific) : specificBody s ≠ [] := by
  rcases s with n | ⟨min, _ | max⟩ <;> simp [specificBody, itoaNat_ne_nil]

theorem y_range {n : Nat} {s : Specific} {v : Str} :
    ∃ caps, Y (reRange n) (specificStr s ++ v) ⟨specificStr s, v, caps⟩ ∧ look caps n = specificBody s := by
  have hb : ∃ c u, specificBody s = c :: u := by
    cases h : specificBody s with
    | nil => exact absurd h (body_ne s)
    | cons c u => exact ⟨c, u, rfl⟩
  obtain ⟨c, u, hb⟩ := hb
  have hall : ∀ d ∈ c :: u, noneOf [closeC] d = true := by
    intro d hd
    rw [← hb] at hd
    rw [noneOf_iff]
    intro h
    simp at h
    rcases body_chars s d hd with h1 | h1
    · rw [h] at h1; simp [closeC] at h1
    · rw [h] at h1; simp [closeC, commaC] at h1
  have h1 : Y (reC openC) (specificStr s ++ v) ⟨[openC], c :: u ++ (closeC :: v), []⟩ := by
    rw [specificStr_body, hb]; simpa using y_reC
  have h2 : Y (.plus (noneOf [closeC])) (c :: u ++ (closeC :: v)) ⟨c :: u, closeC :: v, []⟩ :=
    y_plus (hall c List.mem_cons_self) (fun d hd => hall d (List.mem_cons_of_mem _ hd)) (by simp [noneOf])
  have h := y_seq h1 (y_seq (y_grp (n := n) h2) (y_seq (y_reC (c := closeC) (s := v)) (y_eps v)))
  refine ⟨[(n, c :: u)], Eq.trans h ?_, by simp [look_cons, hb]⟩
  simp [specificStr_body, hb]

/-- The characters with which a cardinality begins. -/
def cardStart : Cls := oneOf [openC, plusC, starC, optC]

theorem f_range {n : Nat} {s : Str} (h : ∀ x ∈ s.head?, x ≠ openC) : F (reRange n) s := f_seq_left (f_reC h)

theorem y_card {n : Nat} {k : Option Card} {v : Str} (hk : k ≠ some .mandatory) (hv : Stops cardStart v) :
    ∃ caps, Y (reCard n) (cardText k ++ v) ⟨cardText k, v, caps⟩ := by
  have hv' : ∀ x ∈ v.head?, x ≠ openC ∧ x ≠ plusC ∧ x ≠ starC ∧ x ≠ optC := by
    intro x hx
    have := hv x hx
    simp [cardStart, oneOf] at this
    exact this
  have o1 : ∀ {s}, (∀ x ∈ s.head?, x ≠ openC) → Y (.opt (.grp n (reRange (n + 1)))) s ⟨[], s, []⟩ :=
    fun h => y_opt_none (f_grp (f_range h))
  have o2 : ∀ {c k s}, (∀ x ∈ s.head?, x ≠ c) → Y (.opt (.grp k (reC c))) s ⟨[], s, []⟩ :=
    fun h => y_opt_none (f_grp (f_reC h))
  have s2 : ∀ {c k s}, Y (.opt (.grp k (reC c))) (c :: s) ⟨[c], s, [(k, [c])]⟩ :=
    fun {c k s} => y_opt_some (y_grp y_reC)
  rcases k with _ | (_ | _ | _ | _ | s)
  · have h := y_seq (o1 (s := v) fun x hx => (hv' x hx).1) (y_seq (o2 (c := plusC) (k := n + 2) (s := v) fun x hx => (hv' x hx).2.1)
      (y_seq (o2 (c := starC) (k := n + 3) (s := v) fun x hx => (hv' x hx).2.2.1)
      (y_seq (o2 (c := optC) (k := n + 4) (s := v) fun x hx => (hv' x hx).2.2.2) (y_eps v))))
    exact ⟨_, h⟩
  · have h := y_seq (o1 (s := optC :: v) (by simp [optC, openC])) (y_seq (o2 (c := plusC) (k := n + 2) (s := optC :: v) (by simp [optC, plusC]))
      (y_seq (o2 (c := starC) (k := n + 3) (s := optC :: v) (by simp [optC, starC])) (y_seq (s2 (c := optC) (k := n + 4) (s := v)) (y_eps v))))
    exact ⟨_, h⟩
  · exact absurd rfl hk
  · have h := y_seq (o1 (s := plusC :: v) (by simp [plusC, openC])) (y_seq (s2 (c := plusC) (k := n + 2) (s := v))
      (y_seq (o2 (c := starC) (k := n + 3) (s := v) fun x hx => (hv' x hx).2.2.1)
      (y_seq (o2 (c := optC) (k := n + 4) (s := v) fun x hx => (hv' x hx).2.2.2) (y_eps v))))
    exact ⟨_, h⟩
  · have h := y_seq (o1 (s := starC :: v) (by simp [starC, openC])) (y_seq (o2 (c := plusC) (k := n + 2) (s := starC :: v) (by simp [starC, plusC]))
      (y_seq (s2 (c := starC) (k := n + 3) (s := v))
      (y_seq (o2 (c := optC) (k := n + 4) (s := v) fun x hx => (hv' x hx).2.2.2) (y_eps v))))
    exact ⟨_, h⟩
  · obtain ⟨caps, h1, _⟩ := y_range (n := n + 1) (s := s) (v := v)
    have h := y_seq (y_opt_some (y_grp (n := n) h1)) (y_seq (o2 (c := plusC) (k := n + 2) (s := v) fun x hx => (hv' x hx).2.1)
      (y_seq (o2 (c := starC) (k := n + 3) (s := v) fun x hx => (hv' x hx).2.2.1)
      (y_seq (o2 (c := optC) (k := n + 4) (s := v) fun x hx => (hv' x hx).2.2.2) (y_eps v))))
    refine ⟨(n, specificStr s) :: caps, Eq.trans h ?_⟩
    simp [cardText]

/-! ### Specifiers -/

theorem spec_chars {rules : RuleSet} {s : SpecT} (h : s.Ok rules) : ∀ c ∈ s.text,
    c = 32 ∨ c = 9 ∨ c = 13 ∨ c = 10 ∨ LowerLetter c ∨ UpperLetter c ∨ c = 95 ∨ (48 ≤ c.toNat ∧ c.toNat ≤ 57) ∨ c = commaC ∨ c = openC ∨ c = closeC := by
  intro c hc
  obtain ⟨h1, h2, _, h4, h5⟩ := h
  simp only [SpecT.text, List.mem_append, specificStr_body, List.mem_cons, List.not_mem_nil, or_false] at hc
  rcases hc with ((hc | hc) | hc) | (hc | (hc | hc))
  · have := h1 c hc; tauto
  · cases hr : s.isRule with
    | false =>
      obtain ⟨d, u, e, hd, hu⟩ := h4 hr
      rw [e] at hc
      rcases List.mem_cons.1 hc with rfl | hc
      · tauto
      · have := hu c hc; tauto
    | true => have := (h5 hr).1.2 c hc; tauto
  · have := h2 c hc; tauto
  · tauto
  · have := body_chars _ c hc; tauto
  · tauto

/-- The text between the arrows. -/
def specsBody (specs : List SpecT) (close : Str) : Str := (specs.map SpecT.text).flatten ++ close

theorem specsBody_chars {rules : RuleSet} {specs : List SpecT} {close : Str} (h : ∀ s ∈ specs, s.Ok rules) (hc : Blank close) :
    ∀ c ∈ specsBody specs close, c = 32 ∨ c = 9 ∨ c = 13 ∨ c = 10 ∨ LowerLetter c ∨ UpperLetter c ∨ c = 95 ∨ (48 ≤ c.toNat ∧ c.toNat ≤ 57) ∨ c = commaC ∨ c = openC ∨ c = closeC := by
  intro c hm
  simp only [specsBody, List.mem_append, List.mem_flatten, List.mem_map] at hm
  rcases hm with ⟨t, ⟨s, hs, rfl⟩, hm⟩ | hm
  · exact spec_chars (h s hs) c hm
  · have := hc c hm; tauto

theorem y_sub {n : Nat} {rules : RuleSet} {specs : List SpecT} {close v : Str} (hne : specs ≠ []) (h : ∀ s ∈ specs, s.Ok rules) (hc : Blank close) :
    ∃ caps, Y (reSub n) (specsText specs close ++ v) ⟨specsText specs close, v, caps⟩ := by
  have hb : ∃ c u, specsBody specs close = c :: u := by
    cases hb : specsBody specs close with
    | nil =>
      exfalso
      cases specs with
      | nil => exact hne rfl
      | cons s l => simp [specsBody, SpecT.text, specificStr_body] at hb
    | cons c u => exact ⟨c, u, rfl⟩
  obtain ⟨c, u, hb⟩ := hb
  have hall : ∀ d ∈ c :: u, noneOf (lit "<-") d = true := by
    intro d hd
    rw [← hb] at hd
    rw [noneOf_iff, show lit "<-" = [60, 45] by decide]
    intro hm
    have := specsBody_chars h hc d hd
    rcases List.mem_cons.1 hm with rfl | hm
    · simp [LowerLetter, UpperLetter, commaC, openC, closeC] at this
    · simp at hm; subst hm
      simp [LowerLetter, UpperLetter, commaC, openC, closeC] at this
  have h2 : Y (.plus (noneOf (lit "<-"))) (c :: u ++ (lit "<-" ++ v)) ⟨c :: u, lit "<-" ++ v, []⟩ :=
    y_plus (hall c List.mem_cons_self) (fun d hd => hall d (List.mem_cons_of_mem _ hd)) (by rw [show lit "<-" = [60, 45] by decide]; simp [noneOf])
  have h := y_seq (y_text (t := lit "->") (s := c :: u ++ (lit "<-" ++ v))) (y_seq (y_grp (n := n) h2) (y_seq (y_text (t := lit "<-") (s := v)) (y_eps v)))
  have e : specsText specs close = lit "->" ++ (c :: u ++ lit "<-") := by
    have : specs.isEmpty = false := by cases specs <;> simp_all
    rw [← hb]; simp [specsText, specsBody, this]
  refine ⟨[(n, c :: u)], ?_⟩
  rw [e]
  have hh : lit "->" ++ (c :: u ++ lit "<-") ++ v = lit "->" ++ (c :: u ++ (lit "<-" ++ v)) := by simp
  rw [hh]
  refine Eq.trans h ?_
  simp

theorem f_sub {n : Nat} {s : Str} (h : ∀ x ∈ s.head?, x ≠ dashC) : F (reSub n) s := by
  refine f_seq_left ?_
  rw [show lit "->" = [45, 62] by decide]
  exact f_text_head h

/-- The characters with which something behind a name begins. -/
def sufStart : Cls := oneOf [openC, plusC, starC, optC, dashC]

theorem y_suffix {n : Nat} {rules : RuleSet} {k : Option Card} {specs : List SpecT} {close v : Str} (hk : k ≠ some .mandatory)
    (h : ∀ s ∈ specs, s.Ok rules) (hc : Blank close) (hv : Stops sufStart v) :
    ∃ m, Y (.seq (.opt (.grp (n + 2) (reCard (n + 3)))) (.opt (.grp (n + 8) (reSub (n + 9))))) (cardText k ++ specsText specs close ++ v) m ∧
      m.text = cardText k ++ specsText specs close ∧ m.rest = v ∧ look m.caps (n + 2) = cardText k ∧ look m.caps (n + 8) = specsText specs close := by
  have hv1 : Stops cardStart v := by
    intro x hx
    have := hv x hx
    simp [sufStart, cardStart, oneOf] at this ⊢
    tauto
  have hv2 : ∀ x ∈ v.head?, x ≠ dashC := by
    intro x hx
    have := hv x hx
    simp [sufStart, oneOf] at this
    tauto
  have hcs : Stops cardStart (specsText specs close ++ v) := by
    unfold specsText
    by_cases hs : specs.isEmpty
    · simpa [hs] using hv1
    · rw [if_neg hs, show lit "->" = [45, 62] by decide]
      simp [cardStart, oneOf, openC, plusC, starC, optC]
  obtain ⟨c1, h1⟩ := y_card (n := n + 3) hk hcs
  have h1' := y_opt_some (y_grp (n := n + 2) h1)
  have hkeys : ∀ x ∈ (n + 2, cardText k) :: c1, x.1 ≠ n + 8 := by
    intro x hx
    have := caps_groups (Y.mem (y_grp (n := n + 2) h1)) x hx
    simp only [Re.groups, reCard, reRange, Re.all, reC, Re.plus, List.mem_cons, List.nil_append, List.append_nil, List.cons_append,
      List.not_mem_nil, or_false] at this
    omega
  by_cases hs : specs = []
  · subst hs
    have e : specsText [] close = [] := rfl
    rw [e] at h1'
    have h2 : Y (.opt (.grp (n + 8) (reSub (n + 9)))) v ⟨[], v, []⟩ := y_opt_none (f_grp (f_sub hv2))
    refine ⟨_, by rw [List.append_assoc]; exact y_seq h1' h2, by simp [e], rfl, ?_, ?_⟩
    · simp [look_cons]
    · rw [e]; simp only [List.append_nil]; exact look_none hkeys
  · obtain ⟨c2, h2⟩ := y_sub (n := n + 9) (v := v) hs h hc
    refine ⟨_, by rw [List.append_assoc]; exact y_seq h1' (y_opt_some (y_grp (n := n + 8) h2)), by simp, rfl, ?_, ?_⟩
    · simp [look_cons]
    · rw [look_append_right hkeys]; simp [look_cons]

theorem element_keys {n : Nat} {name : Re} (hname : name.groups = []) {s : Str} {m : M} (h : m ∈ run (reElement n name) s) :
    ∀ x ∈ m.caps, n ≤ x.1 ∧ x.1 ≤ n + 9 := by
  intro x hx
  have := caps_groups h x hx
  simp only [Re.groups, reElement, reCard, reRange, reSub, Re.all, reC, Re.plus, hname, List.mem_cons, List.nil_append, List.append_nil, List.cons_append,
    List.not_mem_nil, or_false, List.mem_append] at this
  have t : ∀ t : Str, (Re.text t).groups = [] := by
    intro t
    induction t with
    | nil => rfl
    | cons c t ih => simp [Re.text, Re.groups, ih]
  simp only [t, List.not_mem_nil, false_or, or_false] at this
  omega

theorem y_element {n : Nat} {name : Re} {rules : RuleSet} {nm g : Str} {k : Option Card} {specs : List SpecT} {close v : Str}
    (hy : Y name (nm ++ (g ++ (cardText k ++ specsText specs close ++ v))) ⟨nm, g ++ (cardText k ++ specsText specs close ++ v), []⟩)
    (hg : Blank g) (hst : Stops ws (cardText k ++ specsText specs close ++ v)) (hk : k ≠ some .mandatory)
    (h : ∀ s ∈ specs, s.Ok rules) (hc : Blank close) (hv : Stops sufStart v) :
    ∃ m, Y (reElement n name) (nm ++ (g ++ (cardText k ++ specsText specs close ++ v))) m ∧
      m.text = nm ++ g ++ (cardText k ++ specsText specs close) ∧ m.rest = v ∧
      look m.caps n = nm ∧ look m.caps (n + 2) = cardText k ∧ look m.caps (n + 8) = specsText specs close := by
  obtain ⟨m, h1, h2, h3, h4, h5⟩ := y_suffix (n := n) hk h hc hv
  obtain ⟨mt, mr, mc⟩ := m
  dsimp only at h2 h3 h4 h5
  subst h2; subst h3
  have hh := y_seq (y_grp (n := n) hy) (y_seq (y_star (blank_ws hg) hst) (y_seq (y_grp (n := n + 1) h1) (y_eps mr)))
  refine ⟨_, hh, by simp, rfl, ?_, ?_, ?_⟩
  · simp [look_cons]
  · simp [look_cons, h4]
  · simp [look_cons, h5]

end Verif.Text
