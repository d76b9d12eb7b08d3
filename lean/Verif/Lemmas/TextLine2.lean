import Verif.Lemmas.TextLine

/-! Helper lemmas: reading a line of a token, item by item. -/

namespace Verif.Text
open Verif.Regex Verif.Patterns Verif.Cardinality Verif.Lexer

/-- The reading of the items, starting at an item. -/
def ReadsItems (rules : RuleSet) (w : Str) (l : LineT) : Prop :=
  ∀ x l', l = x :: l' → ∀ a, ∃ out, rd rules a (x.2.text ++ tailText l' w) = .ok out ∧ List.Forall₂ (Shows rules) (survivors false (l.map Prod.snd)) out

def reHash : Re := .seq (.opt (.grp 23 (reC hashC))) .eps

theorem reads_tail {rules : RuleSet} {w : Str} {l : LineT} (h : ReadsItems rules w l) (hl : Sep rules l) (hw : Blank w) (a : Bool) :
    ∃ out, rd rules a (tailText l w) = .ok out ∧ List.Forall₂ (Shows rules) (survivors false (l.map Prod.snd)) out := by
  cases l with
  | nil =>
    refine ⟨[], ?_, .nil⟩
    have e : tailText [] w = w ++ [] := by simp [tailText, lineText]
    rw [e]
    by_cases hne : w = []
    · rw [hne]; exact rd_nil rules a
    · rw [rd_blank rules a hw hne]; exact rd_nil rules _
  | cons x l =>
    obtain ⟨h1, h2, _⟩ := hl x List.mem_cons_self
    obtain ⟨out, h3, h4⟩ := h x l rfl false
    exact ⟨out, by rw [tailText_cons, rd_blank rules a h1 h2]; exact h3, h4⟩

theorem survivors_true_false {i : Item} (hi : i ≠ .switch) (l : List Item) (b : Bool) : survivors b (i :: l) = survivors false (i :: l) := by
  cases i <;> first | rfl | exact absurd rfl hi

theorem hash_part {rules : RuleSet} {w : Str} {l : LineT} (h : ReadsItems rules w l) (h' : ReadsItems rules w l.tail) (hl : Sep rules l) (hw : Blank w) (b : Bool) :
    ∃ m, Y reHash (aft b l w) m ∧ (∀ x ∈ m.caps, x.1 = 23) ∧ ∃ out, rd rules true m.rest = .ok out ∧
      List.Forall₂ (Shows rules) (survivors b (l.map Prod.snd)) out := by
  have nohash : ∀ {s : Str}, (∀ x ∈ s.head?, x ≠ hashC) → Y reHash s ⟨[], s, []⟩ := fun hs => y_seq (y_opt_none (f_grp (f_reC hs))) (y_eps _)
  cases b with
  | false =>
    obtain ⟨out, h1, h2⟩ := reads_tail h hl hw true
    refine ⟨_, nohash (s := tailText l w) ?_, by simp, out, h1, h2⟩
    intro x hx
    rcases blank_head hl hw x hx with rfl | rfl | rfl | rfl <;> decide
  | true =>
    cases l with
    | nil => exact ⟨_, nohash (s := []) (by simp), by simp, [], rd_nil rules true, .nil⟩
    | cons x l =>
      have hl' : Sep rules l := fun y hy => hl y (List.mem_cons_of_mem _ hy)
      obtain ⟨_, _, hok⟩ := hl x List.mem_cons_self
      obtain ⟨c, u, e, hh⟩ := Item.head hok
      by_cases hs : x.2 = .switch
      · have et : x.2.text = [hashC] := by rw [hs]; decide
        have hy : Y reHash (aft true (x :: l) w) ⟨[hashC], tailText l w, [(23, [hashC])]⟩ := by
          show Y reHash (x.2.text ++ tailText l w) _
          rw [et]
          exact y_seq (y_opt_some (y_grp (n := 23) y_reC)) (y_eps _)
        obtain ⟨out, h1, h2⟩ := reads_tail h' hl' hw true
        refine ⟨_, hy, by simp, out, h1, ?_⟩
        rw [List.map_cons, hs]
        exact h2
      · obtain ⟨out, h1, h2⟩ := h x l rfl true
        refine ⟨_, nohash (s := x.2.text ++ tailText l w) ?_, by simp, out, h1, ?_⟩
        · rw [e]
          intro y hy
          simp at hy; subst hy
          rcases hh with ⟨_, _, _, _, _, _, hc⟩ | ⟨_, _, _, _, hc | hc⟩ | ⟨hc, _⟩
          · rintro rfl; simp [LowerLetter, hashC] at hc
          · rintro rfl; simp [UpperLetter, hashC] at hc
          · rw [hc]; decide
          · exact absurd hc hs
        · rw [List.map_cons, survivors_true_false hs]
          exact h2

def reRulePart : Re := .seq (.opt (.grp 12 (reElement 13 reRule))) reHash

theorem rule_hit {rules : RuleSet} {w n g : Str} {k : Option Card} {l : LineT} (h : ReadsItems rules w l) (h' : ReadsItems rules w l.tail)
    (hok : (Item.rule n g k).Ok rules) (hl : Sep rules l) (hw : Blank w) :
    ∃ m, Y reRulePart ((Item.rule n g k).text ++ tailText l w) m ∧ (∀ x ∈ m.caps, 12 ≤ x.1) ∧ m.text ≠ [] ∧ m.text ≠ [hashC] ∧
      ∃ o2 out, partRule rules m = .ok o2 ∧ rd rules true m.rest = .ok out ∧
      List.Forall₂ (Shows rules) (survivors false (Item.rule n g k :: l.map Prod.snd)) (o2 ++ out) := by
  obtain ⟨m, b, q1, hb, q2, q3, q4, q5⟩ := y_item_rule hok hl hw
  obtain ⟨m3, p1, p2, out, p3, p4⟩ := hash_part h h' hl hw (Item.rule n g k).bare
  rw [← q3] at p1
  obtain ⟨hn, hg, hk, r, hr⟩ := hok
  have hne := hn.1
  have hkeys := element_keys (n := 13) (name := reRule) rfl q1.mem
  have htext : (Item.rule n g k).text ≠ [] := by simp [Item.text, hne]
  have hY := y_seq (y_opt_some (y_grp (n := 12) q1)) p1
  have hkeys3 : ∀ j, j ≠ 23 → ∀ x ∈ m3.caps, x.1 ≠ j := fun j hj x hx => by rw [p2 x hx]; exact fun h => hj h.symm
  refine ⟨_, hY, ?_, ?_, ?_, [.element ⟨.rule r, m.text, k⟩], out, ?_, p3, ?_⟩
  · intro x hx
    simp only [List.cons_append, List.mem_cons, List.mem_append] at hx
    rcases hx with rfl | hx | hx
    · simp
    · have := hkeys x hx; omega
    · have := p2 x hx; omega
  · simp [q2, htext]
  · obtain ⟨h1, h2⟩ := hn
    cases n with
    | nil => exact absurd rfl h1
    | cons c u =>
      have := h2 c List.mem_cons_self
      rw [q2]
      simp only [Item.text, List.cons_append, ne_eq, List.cons.injEq, not_and]
      rintro rfl; simp [UpperLetter, hashC] at this
  · have l12 : look ((12, m.text) :: m.caps ++ m3.caps) 12 = m.text := by simp [look_cons]
    have l13 : look ((12, m.text) :: m.caps ++ m3.caps) 13 = n := by
      rw [look_append_left (hkeys3 13 (by decide))]; simp [look_cons, q4]
    have l15 : look ((12, m.text) :: m.caps ++ m3.caps) 15 = cardText k := by
      rw [look_append_left (hkeys3 15 (by decide))]; simp [look_cons, q5]
    have hmt : m.text ≠ [] := by simp [q2, htext]
    unfold partRule tokenRuleElement buildElement
    simp only [group_eq, l12, l13, hr, Out.bind_ok]
    rw [if_pos hmt]
    show (do
      let e ← (do
        let k ← (if look ((12, m.text) :: m.caps ++ m3.caps) 15 ≠ [] then some <$> toCardinality (look ((12, m.text) :: m.caps ++ m3.caps) 15) else .ok none)
        gelementNow (some (GContent.rule r)) m.text k)
      let i ← ginstrNow false (some e)
      return [i]) = _
    rw [l15]
    rcases k with _ | k
    · simp [cardText, gelementNow, hmt, ginstrNow]
    · obtain ⟨h1, h2⟩ := toCardinality_text hk
      rw [if_pos h1, h2]
      simp [gelementNow, hmt, ginstrNow]
  · refine .cons ?_ p4
    exact ⟨⟨r, hr, rfl⟩, rfl, b, hb, q2⟩

theorem rule_part {rules : RuleSet} {w : Str} {l : LineT} (h : ReadsItems rules w l) (h' : ReadsItems rules w l.tail) (h'' : ReadsItems rules w l.tail.tail)
    (hl : Sep rules l) (hw : Blank w) (b : Bool) :
    ∃ m, Y reRulePart (aft b l w) m ∧ (∀ x ∈ m.caps, 12 ≤ x.1) ∧
      ∃ o2 out, partRule rules m = .ok o2 ∧ rd rules true m.rest = .ok out ∧
      List.Forall₂ (Shows rules) (survivors b (l.map Prod.snd)) (o2 ++ out) := by
  have miss : Stops upperU (aft b l w) → ∃ m, Y reRulePart (aft b l w) m ∧ (∀ x ∈ m.caps, 12 ≤ x.1) ∧
      ∃ o2 out, partRule rules m = .ok o2 ∧ rd rules true m.rest = .ok out ∧
      List.Forall₂ (Shows rules) (survivors b (l.map Prod.snd)) (o2 ++ out) := by
    intro hst
    obtain ⟨m3, p1, p2, out, p3, p4⟩ := hash_part h h' hl hw b
    have hY := y_seq (y_opt_none (f_grp (n := 12) (f_seq_left (f_grp (n := 13) (f_rule hst)) : F (reElement 13 reRule) (aft b l w)))) p1
    refine ⟨_, hY, ?_, [], out, ?_, p3, p4⟩
    · intro x hx; simp at hx; have := p2 x hx; omega
    · unfold partRule
      rw [if_neg]
      simp only [group_eq, List.nil_append, not_not]
      exact look_none (fun x hx => by rw [p2 x hx]; decide)
  cases b with
  | false => exact miss (blank_stops (blank_head hl hw) (by decide))
  | true =>
    cases l with
    | nil => exact miss (by simp [aft])
    | cons x l =>
      obtain ⟨_, _, hok⟩ := hl x List.mem_cons_self
      have hl' : Sep rules l := fun y hy => hl y (List.mem_cons_of_mem _ hy)
      by_cases hr : ∃ n g k, x.2 = .rule n g k
      · obtain ⟨n, g, k, e⟩ := hr
        rw [e] at hok
        obtain ⟨m, q1, q2, _, _, o2, out, q3, q4, q5⟩ := rule_hit h' h'' hok hl' hw
        refine ⟨m, ?_, q2, o2, out, q3, q4, ?_⟩
        · show Y reRulePart (x.2.text ++ tailText l w) m
          rw [e]; exact q1
        · rw [List.map_cons, e]; exact q5
      · apply miss
        obtain ⟨c, u, e, hh⟩ := Item.head hok
        show Stops upperU (x.2.text ++ tailText l w)
        rw [e]
        simp only [List.cons_append, stops_cons, Bool.eq_false_iff]
        intro hc
        rw [upperU_iff] at hc
        rcases hh with ⟨_, _, _, _, _, _, h⟩ | ⟨n, g, k, h, _⟩ | ⟨_, h, _⟩
        · rcases hc with hc | rfl
          · unfold UpperLetter at hc; unfold LowerLetter at h; omega
          · simp [LowerLetter] at h
        · exact hr ⟨n, g, k, h⟩
        · subst h; simp [UpperLetter, hashC] at hc

theorem token_hit {rules : RuleSet} {w n g : Str} {k : Option Card} {s : List SpecT} {cl : Str} {l : LineT} (h : ReadsItems rules w l)
    (h' : ReadsItems rules w l.tail) (h'' : ReadsItems rules w l.tail.tail)
    (hok : (Item.token n g k s cl).Ok rules) (hl : Sep rules l) (hw : Blank w) (a : Bool) :
    ∃ out, rd rules a ((Item.token n g k s cl).text ++ tailText l w) = .ok out ∧
      List.Forall₂ (Shows rules) (survivors false (Item.token n g k s cl :: l.map Prod.snd)) out := by
  obtain ⟨m, b, q1, hb, q2, q3, q4, q5, q6⟩ := y_item_token hok hl hw
  obtain ⟨m3, p1, p2, o2, out, p3, p4, p5⟩ := rule_part h h' h'' hl hw (Item.token n g k s cl).bare
  rw [← q3] at p1
  obtain ⟨hn, hg, hcl, hk, hs⟩ := hok
  have hkeys := element_keys (n := 2) (name := reToken) rfl q1.mem
  have hne : n ≠ [] := by obtain ⟨c, u, e, _⟩ := hn; rw [e]; simp
  have htext : (Item.token n g k s cl).text ≠ [] := by simp [Item.text, hne]
  have hmt : m.text ≠ [] := by simp [q2, htext]
  have hY : Y reInstr _ _ := y_seq (y_opt_some (y_grp (n := 1) q1)) p1
  have hlow : ∀ j, j ≤ 11 → look ((1, m.text) :: m.caps ++ m3.caps) j = look ((1, m.text) :: m.caps) j := fun j hj =>
    look_append_left (fun x hx => by have := p2 x hx; omega)
  have hhigh : ∀ j, 12 ≤ j → look ((1, m.text) :: m.caps ++ m3.caps) j = look m3.caps j := fun j hj =>
    look_append_right (fun x hx => by
      rcases List.mem_cons.1 hx with rfl | hx
      · show 1 ≠ j; omega
      · have := hkeys x hx; omega)
  obtain ⟨gs, hgs, hshow⟩ : ∃ gs, partToken rules ⟨m.text ++ m3.text, m3.rest, (1, m.text) :: m.caps ++ m3.caps⟩ = .ok [.element ⟨.token n gs, m.text, k⟩] ∧
      List.Forall₂ (SpecShows rules) s gs := by
    rw [partToken_congr (k := ⟨m.text ++ m3.text, m3.rest, (1, m.text) :: m.caps⟩) hlow]
    have l1 : look ((1, m.text) :: m.caps) 1 = m.text := by simp [look_cons]
    have l2 : look ((1, m.text) :: m.caps) 2 = n := by simp [look_cons, q4]
    have l4 : look ((1, m.text) :: m.caps) 4 = cardText k := by simp [look_cons, q5]
    have l10 : look ((1, m.text) :: m.caps) 10 = specsText s cl := by simp [look_cons, q6]
    have hcard : (if look ((1, m.text) :: m.caps) 4 ≠ [] then some <$> toCardinality (look ((1, m.text) :: m.caps) 4) else .ok none) = .ok k := by
      rw [l4]
      rcases k with _ | k
      · simp [cardText]
      · obtain ⟨h1, h2⟩ := toCardinality_text hk
        rw [if_pos h1, h2]; rfl
    unfold partToken tokenElement buildElement
    simp only [group_eq, l1, l2, l10]
    rw [if_pos hmt]
    by_cases hsn : s = []
    · subst hsn
      refine ⟨[], ?_, .nil⟩
      show (do
        let e ← (do
          let specs ← tokenSpecifiers rules (specsText [] cl)
          let c ← gtokenRefNow n specs
          let k ← (if look ((1, m.text) :: m.caps) 4 ≠ [] then some <$> toCardinality (look ((1, m.text) :: m.caps) 4) else .ok none)
          gelementNow (some c) m.text k)
        let i ← ginstrNow false (some e)
        return [i]) = _
      rw [hcard]
      have : tokenSpecifiers rules (specsText [] cl) = .ok none := by
        have ht : trimSpace (specsText [] cl) = [] := by show trimSpace [] = []; decide +kernel
        unfold tokenSpecifiers
        simp [ht]
      rw [this]
      simp [gtokenRefNow, hne, gelementNow, hmt, ginstrNow]
    · obtain ⟨gs, h1, h2, h3⟩ := tokenSpecifiers_text hsn hs hcl
      refine ⟨gs, ?_, h3⟩
      show (do
        let e ← (do
          let specs ← tokenSpecifiers rules (specsText s cl)
          let c ← gtokenRefNow n specs
          let k ← (if look ((1, m.text) :: m.caps) 4 ≠ [] then some <$> toCardinality (look ((1, m.text) :: m.caps) 4) else .ok none)
          gelementNow (some c) m.text k)
        let i ← ginstrNow false (some e)
        return [i]) = _
      rw [hcard, h1]
      cases gs with
      | nil => exact absurd rfl h2
      | cons g0 gs => simp [gtokenRefNow, hne, gelementNow, hmt, ginstrNow]
  refine ⟨[.element ⟨.token n gs, m.text, k⟩] ++ o2 ++ out, ?_, ?_⟩
  · refine rd_hit rules a hY (by simp [hmt]) ?_ p4
    rw [instrOf_eq, if_neg, hgs, partRule_congr (k := m3) hhigh, p3]
    · rfl
    · obtain ⟨c, u, rfl, hc, _⟩ := hn
      show ¬ m.text ++ m3.text = [hashC]
      rw [q2]
      simp only [Item.text, List.cons_append, List.cons.injEq, not_and]
      rintro rfl; simp [LowerLetter, hashC] at hc
  · rw [List.append_assoc]
    exact .cons ⟨⟨gs, rfl, hshow⟩, rfl, b, hb, q2⟩ p5

theorem reads_items {rules : RuleSet} {w : Str} (hw : Blank w) : ∀ (n : Nat) (l : LineT), l.length ≤ n → (∀ x ∈ l, x.2.Ok rules) → Sep rules l.tail → ReadsItems rules w l
  | 0, l, h, _, _ => by
    intro x l' e
    rw [e] at h; simp at h
  | n + 1, l, h, hok, hl => by
    intro x l' e a
    subst e
    simp only [List.length_cons] at h
    have hl' : Sep rules l' := hl
    have hrec : ∀ t : LineT, (∃ u, u ++ t = l') → ReadsItems rules w t := by
      rintro t ⟨u, hu⟩
      refine reads_items hw n t (by rw [← hu] at h; simp at h; omega) (fun y hy => hok y (by rw [← hu]; simp [hy])) ?_
      intro y hy
      exact hl' y (by rw [← hu]; exact List.mem_append_right _ (List.mem_of_mem_tail hy))
    have h0 := hrec l' ⟨[], rfl⟩
    have h1 : ReadsItems rules w l'.tail := hrec _ (by cases l' with
      | nil => exact ⟨[], rfl⟩
      | cons y t => exact ⟨[y], rfl⟩)
    have h2 : ReadsItems rules w l'.tail.tail := hrec _ (by rcases l' with _ | ⟨y, _ | ⟨z, t⟩⟩
                                                            · exact ⟨[], rfl⟩
                                                            · exact ⟨[y], rfl⟩
                                                            · exact ⟨[y, z], rfl⟩)
    have hx := hok x List.mem_cons_self
    obtain ⟨w0, i⟩ := x
    dsimp only at hx ⊢
    rw [List.map_cons]
    cases i with
    | token nm g k s cl => exact token_hit h0 h1 h2 hx hl' hw a
    | rule nm g k =>
      obtain ⟨m, q1, q2, q3, q4, o2, out, q5, q6, q7⟩ := rule_hit h0 h1 hx hl' hw
      have hst : Stops lower ((Item.rule nm g k).text ++ tailText l' w) := by
        obtain ⟨c, u, e, hh⟩ := Item.head hx
        rw [e]
        simp only [List.cons_append, stops_cons, Bool.eq_false_iff]
        intro hc
        rw [lower_iff] at hc
        rcases hh with ⟨_, _, _, _, _, h, _⟩ | ⟨_, _, _, _, h⟩ | ⟨h, _⟩
        · cases h
        · rcases h with h | rfl
          · unfold LowerLetter at hc; unfold UpperLetter at h; omega
          · simp [LowerLetter] at hc
        · cases h
      have hY : Y reInstr _ _ := y_seq (y_opt_none (f_grp (n := 1) (f_seq_left (f_grp (n := 2) (f_token hst)) : F (reElement 2 reToken) _))) q1
      refine ⟨o2 ++ out, rd_hit rules a hY (by simpa using q3) ?_ q6, q7⟩
      rw [instrOf_eq, if_neg (by simpa using q4)]
      have hp : partToken rules ⟨[] ++ m.text, m.rest, [] ++ m.caps⟩ = .ok [] := by
        unfold partToken
        rw [if_neg]
        simp only [group_eq, List.nil_append, not_not]
        exact look_none (fun x hx => by have := q2 x hx; omega)
      rw [hp]
      have : partRule rules ⟨[] ++ m.text, m.rest, [] ++ m.caps⟩ = .ok o2 := q5
      rw [this]; rfl
    | switch =>
      obtain ⟨out, q1, q2⟩ := reads_tail h0 hl' hw true
      refine ⟨.channelSwitch :: out, ?_, ?_⟩
      · have et : Item.switch.text ++ tailText l' w = hashC :: tailText l' w := rfl
        rw [et]
        have hY : Y reInstr (hashC :: tailText l' w) ⟨[hashC], tailText l' w, [(23, [hashC])]⟩ :=
          y_seq (y_opt_none (f_grp (n := 1) (f_seq_left (f_grp (n := 2) (f_token (by rw [stops_cons]; decide))) : F (reElement 2 reToken) _)))
            (y_seq (y_opt_none (f_grp (n := 12) (f_seq_left (f_grp (n := 13) (f_rule (by rw [stops_cons]; decide))) : F (reElement 13 reRule) _)))
            (y_seq (y_opt_some (y_grp (n := 23) y_reC)) (y_eps _)))
        refine rd_hit rules a (o1 := [.channelSwitch]) hY (by simp) ?_ q1
        rw [instrOf_eq]
        simp [partToken, partRule, M.group]
      · exact .cons trivial q2

end Verif.Text
