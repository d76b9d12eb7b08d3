import Verif.Lemmas.BaseTyped
import Verif.Lemmas.BaseApp
import Verif.Lemmas.RootTotal

/-! # The trees of the shipped grammar, given up lines included: what their children are -/

set_option maxRecDepth 100000

namespace Verif.Base
open Verif.Patterns Verif.Lexer Verif.Cardinality

section
variable {rs : RuleSet} {ts chans : List GToken} {Cut : GToken → GElement → Str → Prop}

/-- A tree of a kind. -/
def TreeOf (rs : RuleSet) (ts chans : List GToken) (Cut : GToken → GElement → Str → Prop) (k : Kind) (a : AToken) : Prop :=
  ∃ t ∈ ts, TokenIs rs k t ∧ ∃ s c, Tree ts chans Cut t s a c

theorem TreeOf.name {k : Kind} {a : AToken} (h : TreeOf rs ts chans Cut k a) : a.name = k.name := by
  obtain ⟨t, _, hk, s, c, h⟩ := h
  cases h with
  | mk => exact hk.1

/-! The children of a line, in its order; the rest of it may be missing. -/
inductive LineItems (rs : RuleSet) (ts chans : List GToken) (Cut : GToken → GElement → Str → Prop) : List Piece → List Item → Prop
  | stop {l : List Piece} : LineItems rs ts chans Cut l []
  | skip {p : Piece} {l : List Piece} {is : List Item} : LineItems rs ts chans Cut l is → LineItems rs ts chans Cut (p :: l) is
  | chan {it : Item} {l : List Piece} {is : List Item} : ChanItem it → LineItems rs ts chans Cut l is → LineItems rs ts chans Cut l (it :: is)
  | token {k : Kind} {rep : Rep} {spec : Option (Kind × Nat)} {as : List AToken} {l : List Piece} {is : List Item} :
      SpecAllows (rep.card.getD .mandatory) as.length → (∀ a ∈ as, TreeOf rs ts chans Cut k a ∧ a.discovery ≠ []) →
      (∀ k2, rep = .one → spec = some (k2, 1) → ∀ a ∈ as, ∃ jt ∈ a.items, jt.name = k2.name) →
      LineItems rs ts chans Cut l is → LineItems rs ts chans Cut (.part (.tok k) rep spec :: l) (as.map (fun a => ⟨k.name, a.discovery, some a⟩) ++ is)
  | rule {r : String} {rep : Rep} {spec : Option (Kind × Nat)} {x : Str} {l : List Piece} {is : List Item} : x ≠ [] →
      LineItems rs ts chans Cut l is → LineItems rs ts chans Cut (.part (.rule r) rep spec :: l) (⟨lit r, x, none⟩ :: is)

theorem LineItems.gap {g : List Item} {l : List Piece} {is : List Item} (hg : ∀ it ∈ g, ChanItem it) (h : LineItems rs ts chans Cut l is) :
    LineItems rs ts chans Cut l (g ++ is) := by
  induction g with
  | nil => exact h
  | cons x g ih => exact .chan (hg x (by simp)) (ih fun it hit => hg it (by simp [hit]))

variable (hch : ∀ ch ∈ chans, ∀ l ∈ ch.must, ChanLine l)
  (hts : ∀ t ∈ ts, ∃ k, TokenIs rs k t) (hrs : ∀ n r, rs.find n = .ok r → r.name = n)

/-! Every token inside is the root of a tree. -/
mutual
theorem tree_post : ∀ {t : GToken} {s : Str} {a : AToken} {c : Str → Nat}, Tree ts chans Cut t s a c → t ∈ ts →
    ∀ v ∈ a.post, ∃ t' ∈ ts, ∃ s' c', Tree ts chans Cut t' s' v c'
  | _, _, _, _, .mk h1 h2 h3, ht => by
    have ih := treeLine_post h3
    intro v hv
    simp only [AToken.post, List.mem_append, List.mem_singleton] at hv
    rcases hv with hv | rfl
    · exact ih v hv
    · exact ⟨_, ht, _, _, .mk h1 h2 h3⟩
theorem trees_post : ∀ {t : GToken} {s : Str} {as : List AToken} {c : Str → Nat}, Trees ts chans Cut t s as c → t ∈ ts →
    ∀ v ∈ postTokens as, ∃ t' ∈ ts, ∃ s' c', Tree ts chans Cut t' s' v c'
  | _, _, _, _, .nil, _ => by simp [postTokens]
  | _, _, _, _, .cons _ h1 h2, ht => by
    have a1 := tree_post h1 ht
    have a2 := trees_post h2 ht
    intro v hv
    simp only [postTokens, List.mem_append] at hv
    exact hv.elim (a1 v) (a2 v)
theorem treeLine_post : ∀ {t : GToken} {gl : GLine} {s : Str} {ms : List AMatch} {c : Str → Nat}, TreeLine ts chans Cut t gl s ms c →
    ∀ v ∈ postMatches ms, ∃ t' ∈ ts, ∃ s' c', Tree ts chans Cut t' s' v c'
  | _, _, _, _, _, .done => by simp [postMatches]
  | _, _, _, _, _, .switch h => treeLine_post h
  | _, _, _, _, _, .absent _ hg _ h => by
    have a1 := treeGap_post hg
    have a2 := treeLine_post h
    intro v hv
    rw [postMatches_append, List.mem_append] at hv
    exact hv.elim (a1 v) (a2 v)
  | _, _, _, _, _, .token hg _ _ hu _ _ hts' _ _ h => by
    have a1 := treeGap_post hg
    have a2 := treeLine_post h
    have a3 := trees_post hts' hu
    intro v hv
    rw [postMatches_append, List.mem_append] at hv
    simp only [postMatches, AMatch.post, List.mem_append] at hv
    rcases hv with hv | hv | hv
    · exact a1 v hv
    · exact a3 v hv
    · exact a2 v hv
  | _, _, _, _, _, .rule hg _ _ _ _ _ _ _ h => by
    have a1 := treeGap_post hg
    have a2 := treeLine_post h
    intro v hv
    rw [postMatches_append, List.mem_append] at hv
    simp only [postMatches, AMatch.post, List.nil_append] at hv
    exact hv.elim (a1 v) (a2 v)
  | _, _, _, _, _, .cut _ => by simp [postMatches]
theorem treeGap_post : ∀ {s : Str} {g : List AMatch}, TreeGap ts chans Cut s g → ∀ v ∈ postMatches g, ∃ t' ∈ ts, ∃ s' c', Tree ts chans Cut t' s' v c'
  | _, _, .nil => by simp [postMatches]
  | _, _, .cons _ _ _ h3 _ h4 => by
    have a1 := treeLine_post h3
    have a2 := treeGap_post h4
    intro v hv
    rw [postMatches_append, List.mem_append] at hv
    exact hv.elim (a1 v) (a2 v)
end

theorem trees_each : ∀ {as : List AToken} {t : GToken} {s : Str} {c : Str → Nat}, Trees ts chans Cut t s as c → ∀ a ∈ as, ∃ s' c', Tree ts chans Cut t s' a c'
  | [], _, _, _, _ => by simp
  | a :: as, _, _, _, h => by
    cases h with
    | cons _ h1 h2 =>
      have := trees_each h2
      intro b hb
      rcases List.mem_cons.mp hb with rfl | hb
      · exact ⟨_, _, h1⟩
      · exact this b hb

theorem tree_ne {t : GToken} {s : Str} {a : AToken} {c : Str → Nat} (h : Tree ts chans Cut t s a c) : a.discovery ≠ [] := by
  cases h with
  | mk h1 h2 h3 => exact h2

/-- The counted parts are there. -/
theorem treeLine_count : ∀ {gl : GLine} {t : GToken} {s : Str} {ms : List AMatch} {c : Str → Nat}, TreeLine ts chans Cut t gl s ms c →
    ∀ n, 0 < c n → ∃ it ∈ its ms, it.name = n := by
  intro gl
  induction gl with
  | nil =>
    intro t s ms c h
    cases h
    simp
  | cons i gl ih =>
    intro t s ms c h
    cases h with
    | switch h => exact ih h
    | absent h0 hg _ h =>
      intro n hn
      obtain ⟨it, h1, h2⟩ := ih h n hn
      exact ⟨it, by rw [its_append]; simp [h1], h2⟩
    | @token _ u e specs _ _ s' rest g ms as k c hg _ h0 hu hne hcard hts' hsp _ h =>
      intro n hn
      rw [its_append, its_cons]
      by_cases hun : u.name = n
      · obtain ⟨a, as', rfl⟩ := List.exists_cons_of_ne_nil hne
        exact ⟨⟨u.name, a.discovery, some a⟩, by simp [AMatch.items], hun⟩
      · obtain ⟨it, h1, h2⟩ := ih h n (by simpa [hun] using hn)
        exact ⟨it, by simp [h1], h2⟩
    | @rule _ e r _ _ s' rest g ms ws x c hg _ h0 hne hws hcard hx _ h =>
      intro n hn
      rw [its_append, its_cons]
      by_cases hun : r.name = n
      · exact ⟨⟨r.name, x.content, none⟩, by simp [AMatch.items], hun⟩
      · obtain ⟨it, h1, h2⟩ := ih h n (by simpa [hun] using hn)
        exact ⟨it, by simp [h1], h2⟩
    | cut => simp

theorem tree_count {t : GToken} {s : Str} {a : AToken} {c : Str → Nat} (h : Tree ts chans Cut t s a c) : ∀ n, 0 < c n → ∃ it ∈ a.items, it.name = n := by
  cases h with
  | mk h1 h2 h3 => exact treeLine_count h3

include hch hts hrs in
theorem treeLine_items : ∀ {l : List Piece} {gl : GLine} {t : GToken} {s : Str} {ms : List AMatch} {c : Str → Nat}, List.Forall₂ (PieceIs rs) l gl →
    TreeLine ts chans Cut t gl s ms c → LineItems rs ts chans Cut l (its ms) := by
  intro l gl t s ms c hp
  induction hp generalizing t s ms c with
  | nil =>
    intro h
    cases h
    exact .stop
  | @cons p i l gl h1 h2 ih =>
    intro h
    cases h with
    | switch h => exact .skip (ih h)
    | absent h0 hg _ h => rw [its_append]; exact .gap (treeGap_chan hch hg) (.skip (ih h))
    | @token _ u e specs _ _ s' rest g ms as kc c hg _ h0 hu hne hcard hts' hsp _ h =>
      rw [its_append, its_cons]
      refine .gap (treeGap_chan hch hg) ?_
      cases p with
      | switch => simp [PieceIs] at h1
      | part sym rep spec =>
        cases sym with
        | rule r => obtain ⟨e', r', h1, h1', h1'', _⟩ := h1; cases h1; rw [h0] at h1''; cases h1''
        | tok k =>
          obtain ⟨e', h1, h1', h1''⟩ := h1
          cases h1
          rw [h0] at h1''
          simp only [GContent.token.injEq] at h1''
          obtain ⟨hn, hspecs⟩ := h1''
          obtain ⟨ku, hku⟩ := hts u hu
          obtain rfl : ku = k := name_inj (hku.1.symm.trans hn)
          have hit : (AMatch.token u.name as).items = as.map (fun a => (⟨ku.name, a.discovery, some a⟩ : Item)) := by
            simp [AMatch.items, hn]
          rw [hit]
          have hcard' : SpecAllows (rep.card.getD .mandatory) as.length := by rw [← h1']; exact hcard
          refine .token hcard' ?_ ?_ (ih h)
          · intro a ha
            obtain ⟨s', c', h'⟩ := trees_each hts' a ha
            exact ⟨⟨u, hu, hku, s', c', h'⟩, tree_ne h'⟩
          · rintro k2 rfl rfl a ha
            have hlen : as.length = 1 := by simpa [Rep.card, SpecAllows] using hcard'
            obtain ⟨a', rfl⟩ := List.length_eq_one_iff.mp hlen
            simp at ha
            subst ha
            have := hsp ⟨.token k2.name, .amount (UInt64.ofNat 1)⟩ (by rw [hspecs]; simp [specsOf])
            simp [SpecAllows, GSpecContent.name] at this
            cases hts' with
            | cons _ g1 g2 =>
              cases g2
              exact tree_count g1 _ (by simp at this; omega)
    | @rule _ e r _ _ s' rest g ms ws x c hg _ h0 hne hws hcard hx _ h =>
      rw [its_append, its_cons]
      refine .gap (treeGap_chan hch hg) ?_
      cases p with
      | switch => simp [PieceIs] at h1
      | part sym rep spec =>
        cases sym with
        | tok k => obtain ⟨e', h1, h1', h1''⟩ := h1; cases h1; rw [h0] at h1''; cases h1''
        | rule rn =>
          obtain ⟨e', r', h1, h1', h1'', h1f⟩ := h1
          cases h1
          rw [h0] at h1''
          cases h1''
          have hn : r.name = lit rn := hrs _ _ h1f
          simp only [AMatch.items, hn]
          exact .rule (by simpa [hx] using content_ne hne hws.texts) (ih h)
    | cut => exact .stop

include hch hts hrs in
/-- The children of a tree are those of one of the lines. -/
theorem TreeOf.line {k : Kind} {a : AToken} (h : TreeOf rs ts chans Cut k a) : ∃ l ∈ source k, LineItems rs ts chans Cut l a.items := by
  obtain ⟨t, ht, hk, s, c, h⟩ := h
  cases h with
  | @mk _ i gl _ ms _ h1 h2 h3 =>
    obtain ⟨l, hl, hp⟩ := (forall2_mem hk.2.2).2 gl (List.mem_of_getElem? h1)
    exact ⟨l, hl, treeLine_items hch hts hrs hp h3⟩

/-! ## What the children of a line are -/

/-- A child of a line. -/
theorem LineItems.item {l : List Piece} {is : List Item} (h : LineItems rs ts chans Cut l is) {it : Item} (hit : it ∈ is) :
    it.content ≠ [] ∧ (ChanItem it ∨
      (∃ k rep spec a, Piece.part (.tok k) rep spec ∈ l ∧ it.name = k.name ∧ it.content = a.discovery ∧ it.token = some a ∧ TreeOf rs ts chans Cut k a ∧
        ∀ k2, rep = .one → spec = some (k2, 1) → ∃ jt ∈ a.items, jt.name = k2.name) ∨
      ∃ r rep spec, Piece.part (.rule r) rep spec ∈ l ∧ it.name = lit r ∧ it.token = none) := by
  induction h with
  | stop => simp at hit
  | skip _ ih =>
    refine ⟨(ih hit).1, ?_⟩
    rcases (ih hit).2 with h | ⟨k, rep, spec, a, h1, h2⟩ | ⟨r, rep, spec, h1, h2⟩
    · exact .inl h
    · exact .inr (.inl ⟨k, rep, spec, a, by simp [h1], h2⟩)
    · exact .inr (.inr ⟨r, rep, spec, by simp [h1], h2⟩)
  | chan hc _ ih =>
    rcases List.mem_cons.mp hit with rfl | hit
    · exact ⟨hc.1, .inl hc⟩
    · exact ih hit
  | @token k rep spec as l is hcard has hsp _ ih =>
    rcases List.mem_append.mp hit with hit | hit
    · obtain ⟨a, ha, rfl⟩ := List.mem_map.mp hit
      exact ⟨(has a ha).2, .inr (.inl ⟨k, rep, spec, a, by simp, rfl, rfl, rfl, (has a ha).1, fun k2 e1 e2 => hsp k2 e1 e2 a ha⟩)⟩
    · refine ⟨(ih hit).1, ?_⟩
      rcases (ih hit).2 with h | ⟨k, rep, spec, a, h1, h2⟩ | ⟨r, rep, spec, h1, h2⟩
      · exact .inl h
      · exact .inr (.inl ⟨k, rep, spec, a, by simp [h1], h2⟩)
      · exact .inr (.inr ⟨r, rep, spec, by simp [h1], h2⟩)
  | @rule r rep spec x l is hx _ ih =>
    rcases List.mem_cons.mp hit with rfl | hit
    · exact ⟨hx, .inr (.inr ⟨r, rep, spec, by simp, rfl, rfl⟩)⟩
    · refine ⟨(ih hit).1, ?_⟩
      rcases (ih hit).2 with h | ⟨k, rep, spec, a, h1, h2⟩ | ⟨r, rep, spec, h1, h2⟩
      · exact .inl h
      · exact .inr (.inl ⟨k, rep, spec, a, by simp [h1], h2⟩)
      · exact .inr (.inr ⟨r, rep, spec, by simp [h1], h2⟩)

/-- No part of the line has the name. -/
def noPart (l : List Piece) (n : Str) : Bool := l.all fun
  | .switch => true
  | .part s _ _ => !(s.name == n)
/-- At most one part of the line has the name, and it is not repeated. -/
def onePart : List Piece → Str → Bool
  | [], _ => true
  | .switch :: l, n => onePart l n
  | .part s rep _ :: l, n => if s.name = n then (rep == .one || rep == .opt) && noPart l n else onePart l n

theorem LineItems.none {l : List Piece} {is : List Item} (h : LineItems rs ts chans Cut l is) {n : Str} (hn : noPart l n = true) (hc : n ∉ channelNames) :
    (is.filter fun it => it.name = n) = [] := by
  rw [List.filter_eq_nil_iff]
  intro it hit
  simp only [decide_eq_true_eq]
  intro e
  rw [noPart, List.all_eq_true] at hn
  rcases (h.item hit).2 with h | ⟨k, rep, spec, a, h1, h2, _⟩ | ⟨r, rep, spec, h1, h2, _⟩
  · exact hc (e ▸ h.2.1)
  · have := hn _ h1
    simp only [Bool.not_eq_true', beq_eq_false_iff_ne] at this
    exact this (h2.symm.trans e)
  · have := hn _ h1
    simp only [Bool.not_eq_true', beq_eq_false_iff_ne] at this
    exact this (h2.symm.trans e)

theorem one_opt_le {rep : Rep} {n : Nat} (h : (rep == .one || rep == .opt) = true) (hs : SpecAllows (rep.card.getD .mandatory) n) : n ≤ 1 := by
  rw [Bool.or_eq_true, beq_iff_eq, beq_iff_eq] at h
  rcases h with rfl | rfl
  · simp [Rep.card, SpecAllows] at hs; omega
  · simp [Rep.card, SpecAllows] at hs; omega

theorem LineItems.one {l : List Piece} {is : List Item} (h : LineItems rs ts chans Cut l is) {n : Str} (hn : onePart l n = true) (hc : n ∉ channelNames) :
    (is.filter fun it => it.name = n).length ≤ 1 := by
  induction h with
  | stop => simp
  | @skip p l is h ih =>
    cases p with
    | switch => exact ih hn
    | part s rep spec =>
      rw [onePart] at hn
      split at hn
      · rw [Bool.and_eq_true] at hn
        rw [h.none hn.2 hc]; simp
      · exact ih hn
  | @chan it _ _ hi _ ih =>
    rw [List.filter_cons_of_neg (by simp only [decide_eq_true_eq]; rintro rfl; exact hc hi.2.1)]
    exact ih hn
  | @token k rep spec as l is hcard has hsp h ih =>
    rw [List.filter_append, List.length_append]
    rw [onePart] at hn
    split at hn
    · rw [Bool.and_eq_true] at hn
      rw [h.none hn.2 hc]
      have := List.length_filter_le (fun it : Item => decide (it.name = n)) (as.map (fun a => (⟨k.name, a.discovery, some a⟩ : Item)))
      have := one_opt_le hn.1 hcard
      simp at *
      omega
    · have : ((as.map (fun a => (⟨k.name, a.discovery, some a⟩ : Item))).filter fun it => it.name = n) = [] := by
        rw [List.filter_eq_nil_iff]
        intro it hit
        obtain ⟨a, _, rfl⟩ := List.mem_map.mp hit
        simpa using ‹¬ _›
      rw [this]
      simpa using ih hn
  | @rule r rep spec x l is hx h ih =>
    rw [onePart] at hn
    split at hn
    · rw [Bool.and_eq_true] at hn
      rename_i e
      rw [List.filter_cons_of_pos (by simpa [Sym.name] using e), h.none hn.2 hc]; simp
    · rename_i e
      rw [List.filter_cons_of_neg (by simpa [Sym.name] using e)]
      exact ih hn

/-- What comes behind a child which is a token. -/
theorem LineItems.later {l : List Piece} {is : List Item} (h : LineItems rs ts chans Cut l is) :
    ∀ {pre post : List Item} {it : Item} {w : AToken}, is = pre ++ it :: post → it.token = some w →
      ∃ l1 k rep spec l2, l = l1 ++ Piece.part (.tok k) rep spec :: l2 ∧ it.name = k.name ∧
        ∀ jt ∈ post, ∀ u, jt.token = some u → ∃ k', TreeOf rs ts chans Cut k' u ∧
          ((k' = k ∧ (rep == .one || rep == .opt) = false) ∨ ∃ rep' spec', Piece.part (.tok k') rep' spec' ∈ l2) := by
  induction h with
  | stop => intro pre post it w e _; simp at e
  | @skip p l is h ih =>
    intro pre post it w e ht
    obtain ⟨l1, k, rep, spec, l2, rfl, h1, h2⟩ := ih e ht
    exact ⟨p :: l1, k, rep, spec, l2, rfl, h1, h2⟩
  | @chan x l is hi h ih =>
    intro pre post it w e ht
    cases pre with
    | nil => simp at e; rw [← e.1, hi.2.2] at ht; simp at ht
    | cons y pre => simp at e; exact ih e.2 ht
  | @rule r rep spec x l is hx h ih =>
    intro pre post it w e ht
    cases pre with
    | nil => simp at e; rw [← e.1] at ht; simp at ht
    | cons y pre =>
      simp at e
      obtain ⟨l1, k, rep', spec', l2, rfl, h1, h2⟩ := ih e.2 ht
      exact ⟨_ :: l1, k, rep', spec', l2, rfl, h1, h2⟩
  | @token k rep spec as l is hcard has hsp h ih =>
    intro pre post it w e ht
    rcases List.append_eq_append_iff.mp e with ⟨m, e1, e2⟩ | ⟨m, e1, e2⟩
    · obtain ⟨l1, k, rep', spec', l2, rfl, h1, h2⟩ := ih e2 ht
      exact ⟨_ :: l1, k, rep', spec', l2, rfl, h1, h2⟩
    · cases m with
      | nil =>
        simp at e2
        obtain ⟨l1, k, rep', spec', l2, rfl, h1, h2⟩ := ih (pre := []) (by rw [← e2]; rfl) ht
        exact ⟨_ :: l1, k, rep', spec', l2, rfl, h1, h2⟩
      | cons y m =>
        simp at e2
        obtain ⟨rfl, rfl⟩ := e2
        have hmem : ∀ x ∈ as.map (fun a => (⟨k.name, a.discovery, some a⟩ : Item)), ∃ a ∈ as, x = ⟨k.name, a.discovery, some a⟩ := by
          intro x hx
          obtain ⟨a, ha, rfl⟩ := List.mem_map.mp hx
          exact ⟨a, ha, rfl⟩
        refine ⟨[], k, rep, spec, l, rfl, ?_, ?_⟩
        · obtain ⟨a, _, e⟩ := hmem it (by rw [e1]; simp)
          rw [e]
        · intro jt hj u hu
          rcases List.mem_append.mp hj with hj | hj
          · obtain ⟨a, ha, rfl⟩ := hmem jt (by rw [e1]; simp [hj])
            simp at hu
            subst hu
            refine ⟨k, (has a ha).1, .inl ⟨rfl, ?_⟩⟩
            have hlen := congrArg List.length e1
            simp only [List.length_map, List.length_append, List.length_cons] at hlen
            have hm : 1 ≤ m.length := List.length_pos_of_mem hj
            cases hr : (rep == .one || rep == .opt) with
            | false => rfl
            | true => have := one_opt_le hr hcard; omega
          · rcases (h.item hj).2 with h | ⟨k2, rep, spec, a, h1, h2, _, h4, h5, _⟩ | ⟨r, rep, spec, h1, h2, h3⟩
            · rw [h.2.2] at hu; simp at hu
            · rw [h4] at hu
              simp at hu
              subst hu
              exact ⟨k2, h5, .inr ⟨_, _, h1⟩⟩
            · rw [h3] at hu; simp at hu

end
end Verif.Base
