import Verif.Lemmas.Derivation3
import Verif.Lemmas.LexerLang
import Verif.Lemmas.BaseText2
import Verif.Lemmas.BaseGrammar
import Verif.Lemmas.Roots
import Verif.Spec.BaseSource

/-!
# Derivation trees of the shipped grammar without given up lines are trees of the base language
-/

set_option maxRecDepth 100000

namespace Verif.Base
open Verif.Patterns Verif.Lexer Verif.Cardinality

/-- The items of matches. -/
abbrev its (ms : List AMatch) : List Item := ms.flatMap AMatch.items

/-- A blank or a comment. -/
def ChanItem (it : Item) : Prop := it.content ≠ [] ∧ it.name ∈ channelNames ∧ it.token = none

theorem content_ne {r : Rule} {ws : List Str} (h1 : ws ≠ []) (h2 : ∀ w ∈ ws, RuleText r w) : ws.flatten ≠ [] := by
  cases ws with
  | nil => exact absurd rfl h1
  | cons w ws =>
    have := RuleText_nonempty (h2 w (by simp))
    simp [this]

section
variable {ts chans : List GToken} {Cut : GToken → GElement → Str → Prop}

/-- The line of a channel. -/
def ChanLine (l : GLine) : Prop := ∃ e r, l = [.element e] ∧ e.content = .rule r ∧ e.card = none ∧ r.name ∈ channelNames

variable (hch : ∀ ch ∈ chans, ∀ l ∈ ch.must, ChanLine l)
include hch

mutual
theorem treeLine_chan : ∀ {t : GToken} {l : GLine} {s : Str} {ms : List AMatch} {c : Str → Nat}, TreeLine ts chans Cut t l s ms c →
    ChanLine l → ∀ it ∈ its ms, ChanItem it
  | _, _, _, _, _, .done, _ => by simp [its]
  | _, _, _, _, _, .switch _, h => by obtain ⟨e, r, h, _⟩ := h; simp at h
  | _, _, _, _, _, .absent h0 _ _ _, h => by
    obtain ⟨e, r, h, h2, h3, _⟩ := h
    simp at h
    obtain ⟨rfl, rfl⟩ := h
    simp [GElement.times, h3, SpecAllows] at h0
  | _, _, _, _, _, .token _ _ h0 _ _ _ _ _ _ _, h => by
    obtain ⟨e, r, h, h2, h3, _⟩ := h
    simp at h
    obtain ⟨rfl, rfl⟩ := h
    rw [h2] at h0; cases h0
  | _, _, _, _, _, .rule hg _ h0 h1 h2 _ hx _ hl, h => by
    obtain ⟨e, r, h, h3, h4, h5⟩ := h
    simp at h
    obtain ⟨rfl, rfl⟩ := h
    rw [h3] at h0; cases h0
    cases hl
    intro it hit
    simp only [its, List.flatMap_append, List.flatMap_cons, List.flatMap_nil, List.append_nil, List.mem_append, AMatch.items, List.mem_singleton] at hit
    rcases hit with hit | rfl
    · exact treeGap_chan hg it hit
    · exact ⟨by simp [hx]; simpa using content_ne h1 h2.texts, h5, rfl⟩
  | _, _, _, _, _, .cut _, _ => by simp [its]
theorem treeGap_chan : ∀ {s : Str} {ms : List AMatch}, TreeGap ts chans Cut s ms → ∀ it ∈ its ms, ChanItem it
  | _, _, .nil => by simp [its]
  | _, _, .cons h1 h2 _ h3 _ h4 => by
    intro it hit
    simp only [its, List.flatMap_append, List.mem_append] at hit
    rcases hit with hit | hit
    · exact treeLine_chan h3 (hch _ h1 _ h2) it hit
    · exact treeGap_chan h4 it hit
end
end

/-! ## The numbers of children -/

theorem ofNat_small {m : Nat} (h : m < 2 ^ 64) : (UInt64.ofNat m).toNat = m := by
  simp [UInt64.toNat_ofNat', Nat.mod_eq_of_lt h]

/-- Small numbers of repetitions. -/
def Rep.Small : Rep → Prop
  | .times m => m < 2 ^ 64
  | _ => True

theorem children_token {rep : Rep} (hs : rep.Small) {k : Kind} {n : Nat} (h : SpecAllows (rep.card.getD .mandatory) n) : rep.Children (.tok k) n := by
  cases rep with
  | one => exact h
  | opt => simp [Rep.card, SpecAllows] at h; simp [Rep.Children]; omega
  | plus => exact h
  | star => trivial
  | times m => simp only [Rep.card, Option.getD_some, SpecAllows, ofNat_small hs] at h; exact h

theorem children_rule {rep : Rep} (hs : rep.Small) {r : String} {n : Nat} (hn : 1 ≤ n) (h : SpecAllows (rep.card.getD .mandatory) n) : rep.Children (.rule r) 1 := by
  cases rep with
  | one => rfl
  | opt => exact Nat.le_refl 1
  | plus => rfl
  | star => exact Nat.le_refl 1
  | times m => simp only [Rep.card, Option.getD_some, SpecAllows, ofNat_small hs] at h; simp only [Rep.Children]; omega

theorem children_none {rep : Rep} (hs : rep.Small) {s : Sym} (h : SpecAllows (rep.card.getD .mandatory) 0) : rep.Children s 0 := by
  cases rep with
  | one => simp [Rep.card, SpecAllows] at h
  | opt => simp [Rep.Children]
  | plus => simp [Rep.card, SpecAllows] at h
  | star => cases s <;> simp [Rep.Children]
  | times m =>
    simp only [Rep.card, Option.getD_some, SpecAllows, ofNat_small hs] at h
    cases s <;> simp [Rep.Children, ← h]

theorem lineAllows_nil (s : Sym) : LineAllows [] s 0 := ⟨[], .nil, rfl⟩
theorem lineAllows_switch {l : List Piece} {s : Sym} {m : Nat} (h : LineAllows l s m) : LineAllows (.switch :: l) s m := h
theorem lineAllows_same {l : List Piece} {s : Sym} {rep : Rep} {spec : Option (Kind × Nat)} {n m : Nat} (hn : rep.Children s n) (h : LineAllows l s m) :
    LineAllows (.part s rep spec :: l) s (n + m) := by
  obtain ⟨c, h1, h2⟩ := h
  refine ⟨n :: c, ?_, by simp [h2]⟩
  have : repsOf (.part s rep spec :: l) s = rep :: repsOf l s := by simp [repsOf]
  rw [this]
  exact .cons hn h1
theorem lineAllows_other {l : List Piece} {s s' : Sym} {rep : Rep} {spec : Option (Kind × Nat)} {m : Nat} (hne : s' ≠ s) (h : LineAllows l s m) :
    LineAllows (.part s' rep spec :: l) s m := by
  have : repsOf (.part s' rep spec :: l) s = repsOf l s := by simp [repsOf, hne]
  unfold LineAllows
  rw [this]
  exact h

/-! ## The trees -/

def LitsM (cfg : Cfg) (ms : List AMatch) : Prop := ∀ u ∈ postMatches ms, ∀ k : Kind, u.name = k.name → LiteralsT cfg k u
def LitsL (cfg : Cfg) (as : List AToken) : Prop := ∀ u ∈ postTokens as, ∀ k : Kind, u.name = k.name → LiteralsT cfg k u

theorem postMatches_append (a b : List AMatch) : postMatches (a ++ b) = postMatches a ++ postMatches b := by
  induction a with
  | nil => simp [postMatches]
  | cons x a ih => simp [postMatches, ih]

theorem LitsM.right {cfg : Cfg} {a b : List AMatch} (h : LitsM cfg (a ++ b)) : LitsM cfg b := by
  intro u hu
  exact h u (by rw [postMatches_append]; simp [hu])
theorem LitsM.tail {cfg : Cfg} {a : AMatch} {b : List AMatch} (h : LitsM cfg (a :: b)) : LitsM cfg b := by
  intro u hu
  exact h u (by simp [postMatches, hu])
theorem LitsM.head {cfg : Cfg} {n : Str} {as : List AToken} {b : List AMatch} (h : LitsM cfg (.token n as :: b)) : LitsL cfg as := by
  intro u hu
  exact h u (by simp [postMatches, AMatch.post, hu])
theorem LitsL.tail {cfg : Cfg} {a : AToken} {b : List AToken} (h : LitsL cfg (a :: b)) : LitsL cfg b := by
  intro u hu
  exact h u (by simp [postTokens, hu])
theorem LitsL.head {cfg : Cfg} {a : AToken} {b : List AToken} (h : LitsL cfg (a :: b)) : Lits cfg a := by
  intro u hu
  exact h u (by simp [postTokens, hu])

/-- The child is one of the symbol. -/
def SymIs (cfg : Cfg) : Sym → Item → Prop
  | .tok k, it => ∃ u, it.token = some u ∧ ConfT cfg k u
  | .rule _, it => it.token = none

/-- The child belongs to a part of the line. -/
def PartIs (cfg : Cfg) (l : List Piece) (it : Item) : Prop :=
  ∃ sym rep spec, Piece.part sym rep spec ∈ l ∧ it.name = sym.name ∧ SymIs cfg sym it ∧
    ∀ k, rep = .one → spec = some (k, 1) → ∀ u, it.token = some u → ∃ jt ∈ u.items, jt.name = k.name

theorem PartIs.cons {cfg : Cfg} {l : List Piece} {it : Item} (p : Piece) (h : PartIs cfg l it) : PartIs cfg (p :: l) it := by
  obtain ⟨sym, rep, spec, h1, h2⟩ := h
  exact ⟨sym, rep, spec, by simp [h1], h2⟩

/-- The children of a line. -/
structure LineConf (cfg : Cfg) (l : List Piece) (is : List Item) : Prop where
  items : ∀ it ∈ is, it.content ≠ [] ∧ (PartIs cfg l it ∨ (it.name ∈ channelNames ∧ it.token = none))
  counts : ∀ sym : Sym, (∀ s' rep spec, Piece.part s' rep spec ∈ l → s'.name = sym.name → s' = sym) → sym.name ∉ channelNames →
    LineAllows l sym (is.filter fun it => it.name = sym.name).length

theorem filter_chan {is : List Item} (h : ∀ it ∈ is, ChanItem it) {n : Str} (hn : n ∉ channelNames) : (is.filter fun it => it.name = n) = [] := by
  rw [List.filter_eq_nil_iff]
  intro it hit
  simp
  rintro rfl
  exact hn (h it hit).2.1

/-- Both the numbers of repetitions are small. -/
def SmallLine (l : List Piece) : Prop := ∀ s rep spec, Piece.part s rep spec ∈ l → rep.Small

/-- The lines of a token fit together: its parts are told apart by their names, which are not those of the channels. -/
def LineFits (l : List Piece) : Prop :=
  (∀ s rep spec, Piece.part s rep spec ∈ l → s.name ∉ channelNames ∧ ∀ s' rep' spec', Piece.part s' rep' spec' ∈ l → s'.name = s.name → s' = s) ∧ SmallLine l

/-- The specifier of the first line of `forStatement`. -/
def SpecFits (k : Kind) (l : List Piece) : Prop := k = .forStatement → ∀ s rep spec, Piece.part s rep spec ∈ l → s.name = lit "assigneeNames" →
  rep = .one ∧ spec = some (.commaAssigneeName, 1)

theorem its_append (a b : List AMatch) : its (a ++ b) = its a ++ its b := by simp [its]
theorem its_cons (a : AMatch) (b : List AMatch) : its (a :: b) = a.items ++ its b := by simp [its]

section
variable {rs : RuleSet} {cfg : Cfg} {ts chans : List GToken} (hch : ∀ ch ∈ chans, ∀ l ∈ ch.must, ChanLine l)
  (hts : ∀ t ∈ ts, ∃ k, TokenIs rs k t) (hrs : ∀ n r, rs.find n = .ok r → r.name = n)
  (hfit : ∀ k, ∀ l ∈ source k, LineFits l ∧ SpecFits k l) (hview : ∀ k, List.Forall₂ ViewOf (grammar k) (source k))
include hch hts hrs hfit hview

theorem conf_of_line {k : Kind} {t : GToken} {i : Nat} {gl : GLine} {ms : List AMatch} (ht : TokenIs rs k t) (hl : t.must[i]? = some gl) 
    (h : ∀ l, List.Forall₂ (PieceIs rs) l gl → SmallLine l → LineConf cfg l (its ms)) (hlit : LiteralsT cfg k (.mk t.name i ms)) :
    ConfT cfg k (.mk t.name i ms) := by
  obtain ⟨h1, h2, h3⟩ := ht
  have hi : i < t.must.length := (List.getElem?_eq_some_iff.mp hl).1
  have hi2 : i < (source k).length := by rw [h3.length_eq]; exact hi
  have hi3 : i < (grammar k).length := by rw [(hview k).length_eq]; exact hi2
  have hp := List.forall₂_iff_get.mp h3 |>.2 i hi2 hi
  have hv := List.forall₂_iff_get.mp (hview k) |>.2 i hi3 hi2
  simp only [List.get_eq_getElem] at hp hv
  have hgl : t.must[i] = gl := (List.getElem?_eq_some_iff.mp hl).2
  rw [hgl] at hp
  obtain ⟨⟨f1, f2⟩, f3⟩ := hfit k _ (List.getElem_mem hi2)
  have hc := h _ hp f2
  generalize (source k)[i] = l at *
  obtain ⟨v1, v2, v3⟩ := hv
  have hm : (grammar k)[i] ∈ grammar k := List.getElem_mem hi3
  generalize (grammar k)[i] = gl' at *
  have hin : ∀ p ∈ gl', ∃ rep spec, Piece.part p.1 rep spec ∈ l := fun p hp => (v2 p.1).mp (List.mem_map_of_mem hp)
  have items_eq : (AToken.mk t.name i ms).items = its ms := rfl
  have sym : ∀ p ∈ gl', ∀ it ∈ its ms, it.name = p.1.name → SymIs cfg p.1 it := by
    intro p hp it hit hn
    obtain ⟨rep, spec, hpl⟩ := hin p hp
    obtain ⟨g1, g2⟩ := f1 _ _ _ hpl
    rcases (hc.items it hit).2 with ⟨s, rep', spec', a1, a2, a3, _⟩ | ⟨a1, _⟩
    · have := g2 s _ _ a1 (a2.symm.trans hn)
      exact this ▸ a3
    · exact absurd (hn ▸ a1) g1
  refine .mk hm h1 ?_ ?_ ?_ ?_ ?_ hlit ?_
  · intro it hit
    rw [items_eq] at hit
    refine ⟨(hc.items it hit).1, ?_⟩
    rcases (hc.items it hit).2 with ⟨s, rep', spec', a1, a2, a3, _⟩ | h
    · left
      have := (v2 s).mpr ⟨_, _, a1⟩
      rw [List.mem_map] at this
      obtain ⟨p, hp, rfl⟩ := this
      exact ⟨p, hp, a2⟩
    · exact .inr h
  · intro p hp
    obtain ⟨rep, spec, hpl⟩ := hin p hp
    obtain ⟨g1, g2⟩ := f1 _ _ _ hpl
    rw [v3 p hp, items_eq]
    exact hc.counts p.1 g2 g1
  · intro s card hp it hit hn
    exact sym _ hp it hit hn
  · intro k' card hp it hit hn
    obtain ⟨u, hu, _⟩ := sym _ hp it hit hn
    simp [hu]
  · intro k' card hp it hit hn u hu
    obtain ⟨u', hu', h⟩ := sym _ hp it hit hn
    rw [hu] at hu'
    cases hu'
    exact h
  · by_cases hk : k = .forStatement
    · subst hk
      intro it hit hn u hu
      rw [items_eq] at hit
      rcases (hc.items it hit).2 with ⟨s, rep', spec', a1, a2, a3, a4⟩ | ⟨a1, _⟩
      · obtain ⟨rfl, rfl⟩ := f3 rfl _ _ _ a1 (a2.symm.trans hn)
        exact a4 _ rfl rfl u hu
      · rw [hn] at a1
        exact absurd a1 (by decide)
    · cases k <;> first | trivial | exact absurd rfl hk

mutual
theorem tree_conf : ∀ {t : GToken} {s : Str} {a : AToken} {c : Str → Nat}, Tree ts chans NeverGivesUp t s a c → ∀ {k : Kind}, TokenIs rs k t → Lits cfg a →
    ConfT cfg k a ∧ a.discovery ≠ [] ∧ ∀ n, 0 < c n → ∃ jt ∈ a.items, jt.name = n
  | _, _, _, _, .mk h1 h2 h3, k, ht, hl => by
    have hlm : LitsM cfg _ := fun u hu => hl u (by simp [AToken.post]; exact .inl hu)
    refine ⟨conf_of_line hch hts hrs hfit hview ht h1 (fun l p1 p2 => (treeLine_conf h3 hlm).1 l p1 p2) (hl _ (by simp [AToken.post]) k ht.1), h2, ?_⟩
    exact (treeLine_conf h3 hlm).2
theorem trees_conf : ∀ {t : GToken} {s : Str} {as : List AToken} {c : Str → Nat}, Trees ts chans NeverGivesUp t s as c → ∀ {k : Kind}, TokenIs rs k t →
    LitsL cfg as → (∀ a ∈ as, ConfT cfg k a ∧ a.discovery ≠ []) ∧ ∀ a, as = [a] → ∀ n, 0 < c n → ∃ jt ∈ a.items, jt.name = n
  | _, _, _, _, .nil, _, _, _ => by simp
  | _, _, _, _, .cons (c := c) (c' := c') _ h1 h2, _, ht, hl => by
    have a1 := tree_conf h1 ht hl.head
    have a2 := trees_conf h2 ht hl.tail
    refine ⟨?_, ?_⟩
    · intro a ha
      rcases List.mem_cons.mp ha with rfl | ha
      · exact ⟨a1.1, a1.2.1⟩
      · exact a2.1 a ha
    · intro a ha n hn
      simp at ha
      obtain ⟨rfl, rfl⟩ := ha
      cases h2
      exact a1.2.2 n (by simpa using hn)
theorem treeLine_conf : ∀ {t : GToken} {gl : GLine} {s : Str} {ms : List AMatch} {c : Str → Nat}, TreeLine ts chans NeverGivesUp t gl s ms c →
    LitsM cfg ms → (∀ l, List.Forall₂ (PieceIs rs) l gl → SmallLine l → LineConf cfg l (its ms)) ∧ ∀ n, 0 < c n → ∃ it ∈ its ms, it.name = n
  | _, _, _, _, _, .done, _ => by
    refine ⟨?_, by simp⟩
    intro l h _
    cases h
    exact ⟨by simp [its], fun s _ _ => by simpa [its] using lineAllows_nil s⟩
  | _, _, _, _, _, .switch h, hl => by
    have ih := treeLine_conf h hl
    refine ⟨?_, ih.2⟩
    intro l hp hs
    cases hp with
    | @cons p _ l _ h1 h2 =>
      cases p with
      | part s rep spec =>
        cases s <;> simp [PieceIs] at h1
      | switch =>
        have := ih.1 l h2 (fun s rep spec hm => hs s rep spec (by simp [hm]))
        refine ⟨?_, ?_⟩
        · intro it hit
          obtain ⟨b1, b2⟩ := this.items it hit
          exact ⟨b1, b2.imp (PartIs.cons _) id⟩
        · intro sym h3 h4
          exact lineAllows_switch (this.counts sym (fun s' rep spec hm => h3 s' rep spec (by simp [hm])) h4)
  | _, _, _, _, _, .absent (e := e) (g := g) (ms := ms) h0 hg _ h, hl => by
    have ih := treeLine_conf h hl.right
    have hgc := treeGap_chan hch hg
    refine ⟨?_, ?_⟩
    · intro l hp hs
      cases hp with
      | @cons p _ l _ h1 h2 =>
        have := ih.1 l h2 (fun s rep spec hm => hs s rep spec (by simp [hm]))
        refine ⟨?_, ?_⟩
        · intro it hit
          rw [its_append, List.mem_append] at hit
          rcases hit with hit | hit
          · exact ⟨(hgc it hit).1, .inr (hgc it hit).2⟩
          · obtain ⟨b1, b2⟩ := this.items it hit
            exact ⟨b1, b2.imp (PartIs.cons _) id⟩
        · intro sym h3 h4
          rw [its_append, List.filter_append, filter_chan hgc h4, List.nil_append]
          have hrest := this.counts sym (fun s' rep spec hm => h3 s' rep spec (by simp [hm])) h4
          cases p with
          | switch => simp [PieceIs] at h1
          | part s rep spec =>
            have hcard : e.card = rep.card := by
              cases s with
              | tok k => obtain ⟨e', h1, h1', _⟩ := h1; cases h1; exact h1'
              | rule r => obtain ⟨e', r', h1, h1', _⟩ := h1; cases h1; exact h1'
            have hch0 : rep.Children s 0 := children_none (hs s rep spec (by simp)) (by rw [← hcard]; exact h0)
            by_cases hss : s = sym
            · subst hss
              simpa using lineAllows_same (spec := spec) hch0 hrest
            · exact lineAllows_other hss hrest
    · intro n hn
      obtain ⟨it, h1, h2⟩ := ih.2 n hn
      exact ⟨it, by rw [its_append]; simp [h1], h2⟩
  | _, _, _, _, _, .token (e := e) (u := u) (specs := specs) (g := g) (ms := ms) (as := as) (k := kc) hg _ h0 hu hne hcard hts' hsp _ h, hl => by
    have ih := treeLine_conf h hl.right.tail
    have hgc := treeGap_chan hch hg
    obtain ⟨ku, hku⟩ := hts u hu
    have ih2 := trees_conf hts' hku hl.right.head
    refine ⟨?_, ?_⟩
    · intro l hp hs
      cases hp with
      | @cons p _ l _ h1 h2 =>
        have := ih.1 l h2 (fun s rep spec hm => hs s rep spec (by simp [hm]))
        cases p with
        | switch => simp [PieceIs] at h1
        | part s rep spec =>
          cases s with
          | rule r => obtain ⟨e', r', h1, h1', h1'', _⟩ := h1; cases h1; rw [h0] at h1''; cases h1''
          | tok k =>
            obtain ⟨e', h1, h1', h1''⟩ := h1
            cases h1
            rw [h0] at h1''
            simp only [GContent.token.injEq] at h1''
            obtain ⟨hn, hspecs⟩ := h1''
            obtain rfl : ku = k := name_inj (hku.1.symm.trans hn)
            refine ⟨?_, ?_⟩
            · intro it hit
              rw [its_append, its_cons, List.mem_append, List.mem_append] at hit
              rcases hit with hit | hit | hit
              · exact ⟨(hgc it hit).1, .inr (hgc it hit).2⟩
              · simp only [AMatch.items, List.mem_map] at hit
                obtain ⟨a, ha, rfl⟩ := hit
                refine ⟨(ih2.1 a ha).2, .inl ⟨.tok ku, rep, spec, by simp, hn, ⟨a, rfl, (ih2.1 a ha).1⟩, ?_⟩⟩
                rintro k2 rfl rfl v hv
                cases hv
                have hlen : as.length = 1 := by simpa [GElement.times, h1', Rep.card, SpecAllows] using hcard
                obtain ⟨a', rfl⟩ := List.length_eq_one_iff.mp hlen
                simp at ha
                subst ha
                refine ih2.2 a rfl _ ?_
                have := hsp ⟨.token k2.name, .amount (UInt64.ofNat 1)⟩ (by rw [hspecs]; simp [specsOf])
                simp [SpecAllows, GSpecContent.name] at this
                omega
              · obtain ⟨b1, b2⟩ := this.items it hit
                exact ⟨b1, b2.imp (PartIs.cons _) id⟩
            · intro sym h3 h4
              rw [its_append, its_cons, List.filter_append, filter_chan hgc h4, List.nil_append, List.filter_append, List.length_append]
              have hrest := this.counts sym (fun s' rep spec hm => h3 s' rep spec (by simp [hm])) h4
              by_cases hss : Sym.tok ku = sym
              · subst hss
                have hall : ((AMatch.token u.name as).items.filter fun it => it.name = (Sym.tok ku).name).length = as.length := by
                  rw [List.filter_eq_self.mpr]
                  · simp [AMatch.items]
                  · intro it hit
                    simp only [AMatch.items, List.mem_map] at hit
                    obtain ⟨a, _, rfl⟩ := hit
                    exact decide_eq_true hn
                rw [hall]
                refine lineAllows_same (children_token (hs _ _ _ (List.mem_cons_self)) ?_) hrest
                rw [← h1']; exact hcard
              · have hnone : ((AMatch.token u.name as).items.filter fun it => it.name = sym.name) = [] := by
                  rw [List.filter_eq_nil_iff]
                  intro it hit
                  simp only [AMatch.items, List.mem_map] at hit
                  obtain ⟨a, _, rfl⟩ := hit
                  simp only [decide_eq_true_eq]
                  intro hc
                  exact hss (h3 _ _ _ List.mem_cons_self (hn.symm.trans hc))
                rw [hnone, List.length_nil, Nat.zero_add]
                exact lineAllows_other hss hrest
    · intro n hn
      rw [its_append, its_cons]
      by_cases hun : u.name = n
      · obtain ⟨a, as', rfl⟩ := List.exists_cons_of_ne_nil hne
        exact ⟨⟨u.name, a.discovery, some a⟩, by simp [AMatch.items], hun⟩
      · obtain ⟨it, h1, h2⟩ := ih.2 n (by simpa [hun] using hn)
        exact ⟨it, by simp [h1], h2⟩
  | _, _, _, _, _, .rule (e := e) (r := r) (g := g) (ms := ms) (ws := ws) (x := x) hg _ h0 hne hws hcard hx _ h, hl => by
    have ih := treeLine_conf h hl.right.tail
    have hgc := treeGap_chan hch hg
    refine ⟨?_, ?_⟩
    · intro l hp hs
      cases hp with
      | @cons p _ l _ h1 h2 =>
        have := ih.1 l h2 (fun s rep spec hm => hs s rep spec (by simp [hm]))
        cases p with
        | switch => simp [PieceIs] at h1
        | part s rep spec =>
          cases s with
          | tok k => obtain ⟨e', h1, h1', h1''⟩ := h1; cases h1; rw [h0] at h1''; cases h1''
          | rule rn =>
            obtain ⟨e', r', h1, h1', h1'', h1f⟩ := h1
            cases h1
            rw [h0] at h1''
            cases h1''
            have hn : r.name = lit rn := hrs _ _ h1f
            refine ⟨?_, ?_⟩
            · intro it hit
              rw [its_append, its_cons, List.mem_append, List.mem_append] at hit
              rcases hit with hit | hit | hit
              · exact ⟨(hgc it hit).1, .inr (hgc it hit).2⟩
              · simp only [AMatch.items, List.mem_singleton] at hit
                subst hit
                refine ⟨?_, .inl ⟨.rule rn, rep, spec, by simp, hn, rfl, ?_⟩⟩
                · have := content_ne hne hws.texts
                  simpa [hx] using this
                · intro k2 _ _ v hv
                  cases hv
              · obtain ⟨b1, b2⟩ := this.items it hit
                exact ⟨b1, b2.imp (PartIs.cons _) id⟩
            · intro sym h3 h4
              rw [its_append, its_cons, List.filter_append, filter_chan hgc h4, List.nil_append, List.filter_append, List.length_append]
              have hrest := this.counts sym (fun s' rep spec hm => h3 s' rep spec (by simp [hm])) h4
              by_cases hss : Sym.rule rn = sym
              · subst hss
                have hall : ((AMatch.rule r.name x).items.filter fun it => it.name = (Sym.rule rn).name).length = 1 := by
                  simp [AMatch.items, Sym.name, hn]
                rw [hall]
                refine lineAllows_same (children_rule (hs _ _ _ (List.mem_cons_self)) (n := ws.length) ?_ ?_) hrest
                · cases ws with
                  | nil => exact absurd rfl hne
                  | cons _ _ => simp
                · rw [← h1']; exact hcard
              · have hnone : ((AMatch.rule r.name x).items.filter fun it => it.name = sym.name) = [] := by
                  rw [List.filter_eq_nil_iff]
                  intro it hit
                  simp only [AMatch.items, List.mem_singleton] at hit
                  subst hit
                  simp only [decide_eq_true_eq]
                  intro hc
                  exact hss (h3 _ _ _ List.mem_cons_self (hn.symm.trans hc))
                rw [hnone, List.length_nil, Nat.zero_add]
                exact lineAllows_other hss hrest
    · intro n hn
      rw [its_append, its_cons]
      by_cases hun : r.name = n
      · exact ⟨⟨r.name, x.content, none⟩, by simp [AMatch.items], hun⟩
      · obtain ⟨it, h1, h2⟩ := ih.2 n (by simpa [hun] using hn)
        exact ⟨it, by simp [h1], h2⟩
  | _, _, _, _, _, .cut h0, _ => h0.elim
end
end

end Verif.Base
