import Verif.Lemmas.Derivation2

/-! # Derivation trees: words, proper prefixes, grammars without recursion -/

namespace Verif.Lexer
open Verif.Patterns Verif.Cardinality

/-- All the tokens to which the line refers are declared. -/
def LineDeclared (ts : List GToken) (l : GLine) : Prop :=
  ∀ e, .element e ∈ l → ∀ name specs, e.content = .token name specs → ∃ u ∈ ts, u.name = name

section words
variable {ts chans : List GToken} (hts : ∀ t ∈ ts, ∀ l ∈ t.must, LineDeclared ts l) (hchans : ∀ t ∈ chans, ∀ l ∈ t.must, LineDeclared ts l)
include hts hchans

mutual
theorem tree_word : ∀ {t : GToken} {s : Str} {a : AToken} {c : Str → Nat}, Tree ts chans NeverGivesUp t s a c →
    (∀ l ∈ t.must, LineDeclared ts l) → GWord ts chans (.tok t) a.discovery
  | _, _, _, _, .mk h1 _ h, hd => by
    simp only [AToken.discovery]
    exact .tok (List.mem_of_getElem? h1) (treeLine_word h (hd _ (List.mem_of_getElem? h1)))
theorem trees_word : ∀ {t : GToken} {s : Str} {a : List AToken} {c : Str → Nat}, Trees ts chans NeverGivesUp t s a c →
    (∀ l ∈ t.must, LineDeclared ts l) →
    ∃ ws : List Str, ws.length = a.length ∧ aTokensDiscovery a = ws.flatten ∧ ∀ w ∈ ws, GWord ts chans (.tok t) w
  | _, _, _, _, .nil, _ => ⟨[], rfl, by simp [aTokensDiscovery], by simp⟩
  | _, _, _, _, .cons (a := a) _ h1 h2, hd => by
    obtain ⟨ws, i1, i2, i3⟩ := trees_word h2 hd
    refine ⟨a.discovery :: ws, by simp [i1], by simp [aTokensDiscovery, i2], ?_⟩
    intro w hw
    rcases List.mem_cons.1 hw with rfl | hw
    · exact tree_word h1 hd
    · exact i3 w hw
theorem treeLine_word : ∀ {t : GToken} {l : GLine} {s : Str} {a : List AMatch} {c : Str → Nat}, TreeLine ts chans NeverGivesUp t l s a c →
    LineDeclared ts l → GWord ts chans (.line l) (matchesDiscovery a)
  | _, _, _, _, _, .done, _ => by simpa [matchesDiscovery] using GWord.nil
  | _, _, _, _, _, .switch h, hd => .switch (treeLine_word h (fun e he => hd e (by simp [he])))
  | _, _, _, _, _, .absent (e := e) h0 hg _ h, hd => by
    rw [matchesDiscovery_append]
    have he : GWord ts chans (.elem e) [] := by
      cases hc : e.content with
      | rule r => simpa using GWord.rule (ts := ts) (chans := chans) (ws := []) hc (by simp) h0
      | token name specs =>
        obtain ⟨u, hu, hn⟩ := hd e (by simp) name specs hc
        simpa using GWord.ref (chans := chans) (ws := []) hc hu hn (by simp) h0
    simpa using GWord.cons (treeGap_word hg) he (treeLine_word h (fun e he => hd e (by simp [he])))
  | _, _, _, _, _, .token hg _ hc hu _ hl h1 _ _ h, hd => by
    obtain ⟨ws, i1, i2, i3⟩ := trees_word h1 (hts _ hu)
    rw [matchesDiscovery_append, matchesDiscovery, AMatch.discovery, i2, ← List.append_assoc]
    exact .cons (treeGap_word hg) (.ref hc hu rfl i3 (by rw [i1]; exact hl)) (treeLine_word h (fun e he => hd e (by simp [he])))
  | _, _, _, _, _, .rule (ws := ws) hg _ hc _ hw hl hx _ h, hd => by
    rw [matchesDiscovery_append, matchesDiscovery, AMatch.discovery, hx, ← List.append_assoc]
    exact .cons (treeGap_word hg) (.rule hc hw.texts hl) (treeLine_word h (fun e he => hd e (by simp [he])))
  | _, _, _, _, _, .cut h, _ => h.elim
theorem treeGap_word : ∀ {s : Str} {a : List AMatch}, TreeGap ts chans NeverGivesUp s a → GWord ts chans .gap (matchesDiscovery a)
  | _, _, .nil => by simpa [matchesDiscovery] using GWord.gapNil
  | _, _, .cons hc hl _ h1 _ h2 => by
    rw [matchesDiscovery_append]
    exact .gapCons hc (.tok hl (treeLine_word h1 (hchans _ hc _ hl))) (treeGap_word h2)
end
end words

/-! ## A proper prefix -/

section proper
variable {ts chans : List GToken}

theorem ne_of_append {a b : Str} (h : b ≠ []) : a ++ b ≠ [] := by
  intro h'; exact h (List.append_eq_nil_iff.1 h').2

mutual
theorem tree_proper : ∀ {t : GToken} {s r : Str} {a : AToken} {c : Str → Nat}, Tree ts chans (GivesUp ts) t s a c → s = a.discovery ++ r → r ≠ [] →
    Tree ts chans (GivesUpRecursion ts) t s a c
  | _, _, _, _, _, .mk h1 h2 h, hs, hr => by
    simp only [AToken.discovery] at hs
    exact .mk h1 h2 (treeLine_proper h hs hr)
theorem trees_proper : ∀ {t : GToken} {s r : Str} {a : List AToken} {c : Str → Nat}, Trees ts chans (GivesUp ts) t s a c → s = aTokensDiscovery a ++ r → r ≠ [] →
    Trees ts chans (GivesUpRecursion ts) t s a c
  | _, _, _, _, _, .nil, _, _ => .nil
  | _, _, r, _, _, .cons (as := as) h0 h1 h2, hs, hr => by
    simp only [aTokensDiscovery, List.append_assoc] at hs
    rw [h0] at hs
    have hs := List.append_cancel_left hs
    exact .cons h0 (tree_proper h1 h0 (by rw [hs]; exact ne_of_append hr)) (trees_proper h2 hs hr)
theorem treeLine_proper : ∀ {t : GToken} {l : GLine} {s r : Str} {a : List AMatch} {c : Str → Nat}, TreeLine ts chans (GivesUp ts) t l s a c →
    s = matchesDiscovery a ++ r → r ≠ [] → TreeLine ts chans (GivesUpRecursion ts) t l s a c
  | _, _, _, _, _, _, .done, _, _ => .done
  | _, _, _, _, _, _, .switch h, hs, hr => .switch (treeLine_proper h hs hr)
  | _, _, _, _, _, _, .absent h0 hg h1 h, hs, hr => by
    rw [matchesDiscovery_append, h1, List.append_assoc] at hs
    have hs := List.append_cancel_left hs
    exact .absent h0 (treeGap_proper hg h1 (by rw [hs]; exact ne_of_append hr)) h1 (treeLine_proper h hs hr)
  | _, _, _, _, _, _, .token (ms := ms) hg h0 hc hu hne hl h1 h2 h3 h, hs, hr => by
    rw [matchesDiscovery_append, matchesDiscovery, AMatch.discovery, h0, h3, List.append_assoc, List.append_assoc] at hs
    have hs := List.append_cancel_left (List.append_cancel_left hs)
    have hne2 := ne_of_append (a := matchesDiscovery ms) hr
    rw [← hs] at hne2
    exact .token (treeGap_proper hg h0 (by rw [h3]; exact ne_of_append hne2)) h0 hc hu hne hl (trees_proper h1 h3 hne2) h2 h3 (treeLine_proper h hs hr)
  | _, _, _, _, _, _, .rule (ms := ms) hg h0 hc hne hw hl hx h3 h, hs, hr => by
    rw [matchesDiscovery_append, matchesDiscovery, AMatch.discovery, h0, h3, hx, List.append_assoc, List.append_assoc] at hs
    have hs := List.append_cancel_left (List.append_cancel_left hs)
    have hne2 := ne_of_append (a := matchesDiscovery ms) hr
    rw [← hs] at hne2
    exact .rule (treeGap_proper hg h0 (by rw [h3]; exact ne_of_append hne2)) h0 hc hne hw hl hx h3 (treeLine_proper h hs hr)
  | _, _, _, _, _, _, .cut h, hs, hr => by
    simp only [matchesDiscovery, List.nil_append] at hs
    rcases h with ⟨h, _⟩ | h
    · exact absurd (hs.symm.trans h) hr
    · exact .cut h
theorem treeGap_proper : ∀ {s r : Str} {a : List AMatch}, TreeGap ts chans (GivesUp ts) s a → s = matchesDiscovery a ++ r → r ≠ [] →
    TreeGap ts chans (GivesUpRecursion ts) s a
  | _, _, _, .nil, _, _ => .nil
  | _, _, _, .cons hc hl hne h1 h0 h2, hs, hr => by
    rw [matchesDiscovery_append, h0, List.append_assoc] at hs
    have hs := List.append_cancel_left hs
    exact .cons hc hl hne (treeLine_proper h1 h0 (by rw [hs]; exact ne_of_append hr)) h0 (treeGap_proper h2 hs hr)
end
end proper

/-! ## Without recursion, with optional parts at the ends -/

section simple
variable {ts chans : List GToken} (hchans : ∀ t ∈ chans, GSimple ts t)
include hchans

theorem optional_done {t : GToken} {s : Str} {is : GLine} (h : ∀ e, .element e ∈ is → (e.card.getD .mandatory).isValid 0 = true) :
    TreeLine ts chans NeverGivesUp t is s [] (fun _ => 0) := by
  induction is with
  | nil => exact .done
  | cons i is ih =>
    have ih := ih (fun e he => h e (by simp [he]))
    cases i with
    | channelSwitch => exact .switch ih
    | element e =>
      have := h e (by simp)
      simpa using TreeLine.absent (g := []) (allows_zero this) .nil (by simp [matchesDiscovery]) ih

theorem GSimple.lines {t : GToken} (h : GSimple ts t) : ∀ l ∈ t.must, GOptionalTail l := by cases h; assumption

theorem GSimple.next {t u : GToken} (h : GSimple ts t) (hm : GMention ts u t) : GSimple ts u := by
  cases h with
  | mk h1 h2 h3 h4 =>
    obtain ⟨hu, l, hl, e, he, specs, hc⟩ := hm
    exact h4 l hl e he _ _ hc u hu rfl

mutual
theorem tree_simple : ∀ {t : GToken} {s : Str} {a : AToken} {c : Str → Nat}, Tree ts chans (GivesUp ts) t s a c → GSimple ts t →
    Tree ts chans NeverGivesUp t s a c
  | _, _, _, _, .mk h1 h2 h, hp => .mk h1 h2 (treeLine_simple h hp (hp.lines hchans _ (List.mem_of_getElem? h1)) (List.mem_of_getElem? h1) (fun _ h => h))
theorem trees_simple : ∀ {t : GToken} {s : Str} {a : List AToken} {c : Str → Nat}, Trees ts chans (GivesUp ts) t s a c → GSimple ts t →
    Trees ts chans NeverGivesUp t s a c
  | _, _, _, _, .nil, _ => .nil
  | _, _, _, _, .cons h0 h1 h2, hp => .cons h0 (tree_simple h1 hp) (trees_simple h2 hp)
theorem treeLine_simple : ∀ {t : GToken} {l : GLine} {s : Str} {a : List AMatch} {c : Str → Nat}, TreeLine ts chans (GivesUp ts) t l s a c →
    GSimple ts t → GOptionalTail l → ∀ {l0 : GLine}, l0 ∈ t.must → (∀ i ∈ l, i ∈ l0) → TreeLine ts chans NeverGivesUp t l s a c
  | _, _, _, _, _, .done, _, _, _, _, _ => .done
  | _, _, _, _, _, .switch h, hp, ho, _, hl, hs => .switch (treeLine_simple h hp ho hl (fun i hi => hs i (by simp [hi])))
  | _, _, _, _, _, .absent h0 hg h1 h, hp, ho, _, hl, hs =>
    .absent h0 (treeGap_simple hg) h1 (treeLine_simple h hp ho.2 hl (fun i hi => hs i (by simp [hi])))
  | _, _, _, _, _, .token hg h0 hc hu hne hal h1 h2 h3 h, hp, ho, l0, hl, hs =>
    .token (treeGap_simple hg) h0 hc hu hne hal (trees_simple h1 (hp.next hchans ⟨hu, l0, hl, _, hs _ (by simp), _, hc⟩)) h2 h3
      (treeLine_simple h hp ho.2 hl (fun i hi => hs i (by simp [hi])))
  | _, _, _, _, _, .rule hg h0 hc hne hw hal hx h3 h, hp, ho, _, hl, hs =>
    .rule (treeGap_simple hg) h0 hc hne hw hal hx h3 (treeLine_simple h hp ho.2 hl (fun i hi => hs i (by simp [hi])))
  | t, _, _, _, _, .cut (e := e) h, hp, ho, l0, hl, hs => by
    rcases h with ⟨_, h⟩ | ⟨u, hu, ⟨specs, hc⟩, hr⟩
    · have h0 : (e.card.getD .mandatory).isValid 0 = true := (C30_isValid_iff _ _).2 h
      refine optional_done hchans ?_
      intro e' he'
      rcases List.mem_cons.1 he' with h' | h'
      · cases h'; exact h0
      · exact ho.1 h0 e' h'
    · have hm : GMention ts u t := ⟨hu, l0, hl, e, hs _ (by simp), specs, hc⟩
      exact absurd (Relation.TransGen.head' hm hr) (acc_irrefl (hp.acc.inv hm).transGen)
theorem treeGap_simple : ∀ {s : Str} {a : List AMatch}, TreeGap ts chans (GivesUp ts) s a → TreeGap ts chans NeverGivesUp s a
  | _, _, .nil => .nil
  | _, _, .cons hc hl hne h1 h0 h2 =>
    .cons hc hl hne (treeLine_simple h1 (hchans _ hc) ((hchans _ hc).lines hchans _ hl) hl (fun _ h => h)) h0 (treeGap_simple h2)
end
end simple

end Verif.Lexer
