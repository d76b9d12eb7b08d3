import Verif.Lemmas.BaseText

/-!
# Lemmas: the shipped tokens say what the grammar says
-/

set_option maxRecDepth 100000

namespace Verif.Base
open Verif.Text Verif.Patterns Verif.Lexer

/-! ## Numbers -/

/-- The least and the greatest number of children. -/
def Rep.lo : Rep → Sym → Nat
  | .one, _ => 1
  | .opt, _ => 0
  | .plus, _ => 1
  | .star, _ => 0
  | .times m, .tok _ => m
  | .times m, .rule _ => min m 1
def Rep.hi : Rep → Sym → Option Nat
  | .one, _ => some 1
  | .opt, _ => some 1
  | .plus, .tok _ => none
  | .plus, .rule _ => some 1
  | .star, .tok _ => none
  | .star, .rule _ => some 1
  | .times m, .tok _ => some m
  | .times m, .rule _ => some (min m 1)
/-- At most the number, if there is one. -/
def leOpt (n : Nat) : Option Nat → Bool
  | none => true
  | some h => Nat.ble n h
def addOpt : Option Nat → Option Nat → Option Nat
  | some a, some b => some (a + b)
  | _, _ => none

theorem leOpt_none (n : Nat) : leOpt n none = true := rfl
theorem leOpt_some (n h : Nat) : leOpt n (some h) = true ↔ n ≤ h := by simp [leOpt]

theorem children_iff (k : Rep) (s : Sym) (n : Nat) : k.Children s n ↔ k.lo s ≤ n ∧ leOpt n (k.hi s) = true := by
  cases k <;> cases s <;> simp [Rep.Children, Rep.lo, Rep.hi, leOpt] <;> omega

theorem rep_lo_hi (k : Rep) (s : Sym) : leOpt (k.lo s) (k.hi s) = true := by
  cases k <;> cases s <;> simp [Rep.lo, Rep.hi, leOpt]

def sumLo (s : Sym) : List Rep → Nat
  | [] => 0
  | k :: l => k.lo s + sumLo s l
def sumHi (s : Sym) : List Rep → Option Nat
  | [] => some 0
  | k :: l => addOpt (k.hi s) (sumHi s l)

theorem sums (s : Sym) {l : List Rep} :
    leOpt (sumLo s l) (sumHi s l) = true ∧ ∀ m, (∃ counts : List Nat, List.Forall₂ (fun rep n => rep.Children s n) l counts ∧ counts.sum = m) ↔ sumLo s l ≤ m ∧ leOpt m (sumHi s l) = true := by
  induction l with
  | nil =>
    refine ⟨rfl, fun m => ?_⟩
    constructor
    · rintro ⟨c, h1, h2⟩; cases h1; simp at h2; subst h2; simp [sumLo, sumHi, leOpt]
    · rintro ⟨_, h⟩
      refine ⟨[], .nil, ?_⟩
      simp [sumHi, leOpt] at h
      simp [h]
  | cons k l ih =>
    obtain ⟨i1, i2⟩ := ih
    have hk := rep_lo_hi k s
    have hadd : ∀ x y, leOpt x (k.hi s) = true → leOpt y (sumHi s l) = true → leOpt (x + y) (sumHi s (k :: l)) = true := by
      intro x y hx hy
      simp only [sumHi]
      cases hh : k.hi s with
      | none => rfl
      | some a =>
        cases hs : sumHi s l with
        | none => rfl
        | some b =>
          rw [hh, leOpt_some] at hx
          rw [hs, leOpt_some] at hy
          simp only [addOpt, leOpt_some]
          omega
    refine ⟨hadd _ _ hk i1, fun m => ⟨?_, ?_⟩⟩
    · rintro ⟨c, h1, h2⟩
      cases h1 with
      | @cons _ n _ cs hx hr =>
        obtain ⟨a1, a2⟩ := (children_iff k s n).1 hx
        obtain ⟨b1, b2⟩ := (i2 cs.sum).1 ⟨cs, hr, rfl⟩
        simp only [List.sum_cons] at h2
        subst h2
        exact ⟨by simp only [sumLo]; omega, hadd _ _ a2 b2⟩
    · rintro ⟨h1, h2⟩
      simp only [sumLo] at h1
      -- the first number: as large as possible
      have : ∃ x, k.lo s ≤ x ∧ leOpt x (k.hi s) = true ∧ x ≤ m ∧ sumLo s l ≤ m - x ∧ leOpt (m - x) (sumHi s l) = true := by
        simp only [sumHi] at h2
        cases hs : sumHi s l with
        | none => exact ⟨k.lo s, le_refl _, hk, by omega, by omega, rfl⟩
        | some b =>
          rw [hs, leOpt_some] at i1
          cases hh : k.hi s with
          | none => exact ⟨m - sumLo s l, by omega, rfl, by omega, by omega, by rw [leOpt_some]; omega⟩
          | some a =>
            rw [hs, hh] at h2
            simp only [addOpt, leOpt_some] at h2
            rw [hh, leOpt_some] at hk
            refine ⟨min a (m - sumLo s l), by omega, ?_, by omega, by omega, ?_⟩
            · rw [leOpt_some]; omega
            · rw [leOpt_some]; omega
      obtain ⟨x, x1, x2, x3, x4, x5⟩ := this
      obtain ⟨cs, c1, c2⟩ := (i2 (m - x)).2 ⟨x4, x5⟩
      exact ⟨x :: cs, .cons ((children_iff k s x).2 ⟨x1, x2⟩) c1, by rw [List.sum_cons, c2]; omega⟩

def Card.lo : Card → Nat
  | .one => 1
  | .opt => 0
  | .star => 0
  | .plus => 1
  | .between a _ => a
def Card.hi : Card → Option Nat
  | .one => some 1
  | .opt => some 1
  | .star => none
  | .plus => none
  | .between _ b => some b
theorem allows_iff (c : Card) (m : Nat) : c.Allows m ↔ c.lo ≤ m ∧ leOpt m c.hi = true := by
  cases c <;> simp [Card.Allows, Card.lo, Card.hi, leOpt] <;> omega

/-! ## The view -/

/-- A checker for views. -/
def viewB (g : List (Sym × Card)) (l : List Piece) : Bool :=
  decide (g.map Prod.fst).Nodup && (g.all fun p => l.any fun | .part s _ _ => decide (s = p.1) | .switch => false) &&
    (l.all fun | .part s _ _ => g.any fun p => decide (p.1 = s) | .switch => true) &&
    g.all fun p => decide (sumLo p.1 (repsOf l p.1) = p.2.lo) && decide (sumHi p.1 (repsOf l p.1) = p.2.hi)

theorem viewB_sound {g : List (Sym × Card)} {l : List Piece} (h : viewB g l = true) : ViewOf g l := by
  simp only [viewB, Bool.and_eq_true, decide_eq_true_eq, List.all_eq_true, List.any_eq_true] at h
  obtain ⟨⟨⟨h1, h2⟩, h3⟩, h4⟩ := h
  refine ⟨h1, fun s => ⟨?_, ?_⟩, ?_⟩
  · intro hs
    obtain ⟨p, hp, rfl⟩ := List.mem_map.1 hs
    obtain ⟨x, hx, hx2⟩ := h2 p hp
    cases x with
    | switch => simp at hx2
    | part t rep spec => simp at hx2; subst hx2; exact ⟨rep, spec, hx⟩
  · rintro ⟨rep, spec, hx⟩
    have hy := h3 _ hx
    simp only [List.any_eq_true, decide_eq_true_eq] at hy
    obtain ⟨p, hp, hp2⟩ := hy
    exact List.mem_map.2 ⟨p, hp, hp2⟩
  · intro p hp m
    obtain ⟨q1, q2⟩ := h4 p hp
    rw [LineAllows, (sums p.1).2 m, allows_iff, q1, q2]

def viewsB : List (List (Sym × Card)) → List (List Piece) → Bool
  | [], [] => true
  | g :: gs, l :: ls => viewB g l && viewsB gs ls
  | _, _ => false

theorem viewsB_sound {gs : List (List (Sym × Card))} {ls : List (List Piece)} (h : viewsB gs ls = true) : List.Forall₂ ViewOf gs ls := by
  induction gs generalizing ls with
  | nil => cases ls with | nil => exact .nil | cons _ _ => cases h
  | cons g gs ih =>
    cases ls with
    | nil => cases h
    | cons l ls =>
      simp only [viewsB, Bool.and_eq_true] at h
      exact .cons (viewB_sound h.1) (ih h.2)

/-! ## Comparing -/

/-- A piece with the name as bytes; a switch is `none`. -/
abbrev PieceB := Option (Bool × Str × Option Cardinality.Card × Option (Str × UInt64))
def pieceB : Piece → PieceB
  | .switch => none
  | .part (.tok k) rep spec => some (false, k.name, rep.card, spec.map fun x => (x.1.name, UInt64.ofNat x.2))
  | .part (.rule s) rep _ => some (true, lit s, rep.card, none)

def itemCheck : PieceB → Item → Bool
  | none, .switch => true
  | some (false, m, c, none), .token n _ k [] _ => decide (n = m) && decide (k = c)
  | some (false, m, c, some (x, a)), .token n _ k [s] _ => decide (n = m) && decide (k = c) && !s.isRule && decide (s.name = x) && decide (s.card = .amount a)
  | some (true, m, c, none), .rule n _ k => decide (n = m) && decide (k = c)
  | _, _ => false

theorem item_is {rules : RuleSet} {p : Piece} {i : Item} {x : GInstr} (h : Shows rules i x) (hc : itemCheck (pieceB p) i = true) : PieceIs rules p x := by
  cases p with
  | switch =>
    cases i with
    | switch => cases x with | channelSwitch => rfl | element _ => cases h
    | token => cases hc
    | rule => cases hc
  | part s rep spec =>
    cases s with
    | tok k =>
      cases i with
      | switch => cases spec <;> cases hc
      | rule => cases spec <;> cases hc
      | token n gap kk specs close =>
        cases x with
        | channelSwitch => cases h
        | element e =>
          obtain ⟨⟨gs, h1, h2⟩, h3, _⟩ := h
          cases spec with
          | none =>
            cases specs with
            | cons _ _ => cases hc
            | nil =>
              simp only [pieceB, Option.map_none, itemCheck, Bool.and_eq_true, decide_eq_true_eq] at hc
              cases h2
              exact ⟨e, rfl, h3.trans hc.2, by rw [h1, hc.1]; rfl⟩
          | some y =>
            cases specs with
            | nil => cases hc
            | cons sp l =>
              cases l with
              | cons _ _ => cases hc
              | nil =>
                simp only [pieceB, Option.map_some, itemCheck, Bool.and_eq_true, decide_eq_true_eq, Bool.not_eq_true'] at hc
                obtain ⟨⟨⟨⟨c1, c2⟩, c3⟩, c4⟩, c5⟩ := hc
                cases h2 with
                | @cons _ g _ _ hg hn =>
                  cases hn
                  obtain ⟨g1, g2, _⟩ := hg
                  refine ⟨e, rfl, h3.trans c2, ?_⟩
                  have : g = ⟨.token y.1.name, .amount (UInt64.ofNat y.2)⟩ := by
                    cases g
                    simp only [GSpec.mk.injEq] at *
                    exact ⟨by rw [g2 c3, c4], by rw [g1, c5]⟩
                  rw [h1, c1, this]
                  rfl
    | rule s =>
      cases i with
      | switch => cases hc
      | token => cases hc
      | rule n gap kk =>
        cases x with
        | channelSwitch => cases h
        | element e =>
          obtain ⟨⟨r, h0, h1⟩, h2, _⟩ := h
          simp only [pieceB, itemCheck, Bool.and_eq_true, decide_eq_true_eq] at hc
          exact ⟨e, r, rfl, h2.trans hc.2, h1, hc.1 ▸ h0⟩

def itemsCheck : List PieceB → List Item → Bool
  | [], [] => true
  | g :: gs, l :: ls => itemCheck g l && itemsCheck gs ls
  | _, _ => false

theorem items_is {rules : RuleSet} {ps : List Piece} {is : List Item} {l : GLine} (h : List.Forall₂ (Shows rules) is l)
    (hc : itemsCheck (ps.map pieceB) is = true) : List.Forall₂ (PieceIs rules) ps l := by
  induction h generalizing ps with
  | nil => cases ps with | nil => exact .nil | cons _ _ => cases hc
  | cons hx _ ih =>
    cases ps with
    | nil => cases hc
    | cons p ps =>
      simp only [List.map_cons, itemsCheck, Bool.and_eq_true] at hc
      exact .cons (item_is hx hc.1) (ih hc.2)

def linesCheck : List (List PieceB) → LinesT → Bool
  | [], [] => true
  | g :: gs, l :: ls => itemsCheck g (survivors false (l.1.map Prod.snd)) && linesCheck gs ls
  | _, _ => false

theorem token_is {rules : RuleSet} {k : Kind} {t : TokenT} {g : GToken} (h : TokenShows rules t g)
    (h1 : t.not = none) (h2 : t.name = k.name) (h3 : linesCheck ((source k).map (·.map pieceB)) t.must = true) : TokenIs rules k g := by
  obtain ⟨q1, q2, q3, _⟩ := h
  refine ⟨q1.trans h2, ?_, ?_⟩
  · rw [h1] at q3
    cases hg : g.not with
    | none => rfl
    | some l => rw [hg] at q3; cases q3
  · generalize source k = gs at h3
    generalize t.must = ls at h3 q2
    generalize g.must = must at q2
    revert gs
    induction q2 with
    | nil =>
      intro gs h3
      cases gs with
      | nil => exact .nil
      | cons _ _ => cases h3
    | @cons x l ls must hx _ ih =>
      intro gs h3
      cases gs with
      | nil => cases h3
      | cons g gs =>
        simp only [List.map_cons, linesCheck, Bool.and_eq_true] at h3
        exact .cons (items_is hx h3.1) (ih gs h3.2)

/-! ## The tokens -/

def ruleNames : List Str := rulesData.map RuleT.name

theorem tokensData_check : tokensData.all (TokenT.check ruleNames) = true := by decide +kernel
theorem channelsData_check : channelsData.all (TokenT.check ruleNames) = true := by decide +kernel
theorem tokensData_nodup : (tokensData.map TokenT.name).Nodup := by decide +kernel
theorem channelsData_nodup : (channelsData.map TokenT.name).Nodup := by decide +kernel

/-- The grammar with the names as bytes. -/
def kindData (k : Kind) : Str × List (List PieceB) := (k.name, (source k).map (·.map pieceB))
def pairCheck : List (Str × List (List PieceB)) → List TokenT → Bool
  | [], [] => true
  | k :: ks, t :: ts => decide (t.name = k.1) && t.not.isNone && linesCheck k.2 t.must && pairCheck ks ts
  | _, _ => false

theorem tokensData_source : pairCheck (tokenKinds.map kindData) tokensData = true := by
  simp only [tokenKinds, kindData, List.map_cons, List.map_nil, source, pieceB, Option.map_some, Option.map_none, Kind.name, litBytes]
  decide +kernel

theorem pair_is {rules : RuleSet} {ks : List Kind} {ts : List TokenT} {gs : List GToken}
    (h : List.Forall₂ (TokenShows rules) ts gs) (hc : pairCheck (ks.map kindData) ts = true) : List.Forall₂ (TokenIs rules) ks gs := by
  induction h generalizing ks with
  | nil =>
    cases ks with
    | nil => exact .nil
    | cons _ _ => cases hc
  | @cons t g ts gs hx _ ih =>
    cases ks with
    | nil => cases hc
    | cons k ks =>
      simp only [List.map_cons, pairCheck, Bool.and_eq_true, decide_eq_true_eq, Option.isNone_iff_eq_none, kindData] at hc
      obtain ⟨⟨⟨h1, h2⟩, h3⟩, h4⟩ := hc
      exact .cons (token_is hx h2 h1 h3) (ih h4)

theorem channel_is {rules : RuleSet} {t : TokenT} {g : GToken} {a b : String} {w n gap w' : Str} (h : TokenShows rules t g)
    (h0 : t.name = lit a) (h1 : t.not = none) (h2 : t.tests = none) (h3 : t.must = [([(w, .rule n gap none)], w')]) (h4 : n = lit b) : ChannelIs rules (a, b) g := by
  obtain ⟨q1, q2, q3, q4⟩ := h
  rw [h1] at q3
  rw [h2] at q4
  rw [h3] at q2
  refine ⟨q1.trans h0, ?_, q4, ?_⟩
  · cases hg : g.not with
    | none => rfl
    | some l => rw [hg] at q3; cases q3
  · generalize g.must = must at q2
    cases q2 with
    | cons hx hn =>
      cases hn
      unfold LineShows at hx
      simp only [List.map_cons, List.map_nil, survivors] at hx
      cases hx with
      | @cons _ e _ _ he hn =>
        cases hn
        cases e with
        | channelSwitch => cases he
        | element e =>
          obtain ⟨⟨r, e1, e2⟩, e3, _⟩ := he
          exact ⟨r, e, rfl, e2, e3, h4 ▸ e1⟩

theorem rules_unique {content : Str} {ps : PatternSet} {rs : RuleSet} (h : toRules content ps = .ok rs) : uniqueNow Rule.name rs.list = .ok rs := by
  unfold toRules at h
  cases hl : mapOut (ruleOf ps) (Regex.findAll reRuleEntry content) with
  | ok l =>
    rw [hl, Out.bind_ok] at h
    have := (C38_unique_find l rs h).1
    rw [this]; exact h
  | err => rw [hl] at h; cases h
  | panic => rw [hl] at h; cases h

theorem tokens_unique {content : Str} {rs : RuleSet} {ts : TokenSet} (h : toTokens rs content = .ok ts) : uniqueNow GToken.name ts.list = .ok ts := by
  unfold toTokens at h
  cases hl : mapOut (tokenOf rs) (Regex.findAll reTokenEntry content) with
  | ok l =>
    rw [hl, Out.bind_ok] at h
    have := (C38_unique_find l ts h).1
    rw [this]; exact h
  | err => rw [hl] at h; cases h
  | panic => rw [hl] at h; cases h

/-- The tokens are exactly those which are written. -/
theorem base_exact : ∃ ps rs ts cs, toPatterns patternsAlex = .ok ps ∧ toRules rulesAlex ps = .ok rs ∧
    toTokens rs tokensAlex = .ok ts ∧ toTokens rs channelsAlex = .ok cs ∧ ps.list = basePatterns ∧
    rs.list.map (fun r => (r.name, r.content)) = baseRules ∧ rs.list = rulesData.map ruleFor ∧
    List.Forall₂ (TokenShows rs) tokensData ts.list ∧ List.Forall₂ (TokenShows rs) channelsData cs.list := by
  obtain ⟨ps, rs, h1, h2, h3, h4, h5⟩ := base_rules_exact
  have hu := C38_unique_find _ _ (rules_unique h2)
  have hk : ∀ n ∈ ruleNames, ∃ r, rs.find n = .ok r := by
    intro n hn
    have e : ruleNames = rs.list.map Rule.name := by
      rw [h4, List.map_map]
      rfl
    rw [e, List.mem_map] at hn
    obtain ⟨r, hr, rfl⟩ := hn
    exact ⟨r, h5 r hr⟩
  obtain ⟨ts, t1, t2, _⟩ := (C83_tokens_read rs tokensData tokensEnd (fun t ht => token_of hk (List.all_eq_true.1 tokensData_check t ht)) end_blank).1
    ⟨by simp [tokensData], tokensData_nodup⟩
  obtain ⟨cs, c1, c2, _⟩ := (C83_tokens_read rs channelsData channelsEnd (fun t ht => token_of hk (List.all_eq_true.1 channelsData_check t ht)) end_blank).1
    ⟨by simp [channelsData], channelsData_nodup⟩
  refine ⟨ps, rs, ts, cs, h1, h2, ?_, ?_, h3, ?_, h4, t2, c2⟩
  · rw [← t1, tokensAlex, tokensPieces_eq, ← tokens_pieces]; rfl
  · rw [← c1, channelsAlex, channelsPieces_eq, ← channels_pieces]; rfl
  · rw [h4, ← rulesData_read, List.map_map]
    rfl

end Verif.Base
