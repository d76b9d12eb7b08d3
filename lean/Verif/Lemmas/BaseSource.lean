import Verif.Spec.BaseSource
import Verif.Props.BaseParser
import Verif.Props.Roots
import Verif.Lemmas.BaseReads

/-! # Roots of the abstract syntax trees of the grammar -/

namespace Verif.Base
open Verif.Patterns Verif.Lexer

theorem name_ne_nil (k : Kind) : k.name ≠ [] := by
  obtain ⟨c, l, h, _⟩ := kind_small k
  simp [h]

def hasMandatory (line : List (Sym × Card)) : Bool := line.any fun p => p.2.mandatory

theorem lines_mandatory : ∀ k ∈ allKinds, ∀ line ∈ grammar k, hasMandatory line = true := by decide +kernel

def lineNames (line : List (Sym × Card)) : Bool := line.all fun p => p.1.name ≠ []

theorem lines_names : ∀ k ∈ allKinds, ∀ line ∈ grammar k, lineNames line = true := by decide +kernel

theorem confT_convertible {cfg : Cfg} (t : AToken) : ∀ k, ConfT cfg k t → Convertible t := by
  induction t using AToken.induct with
  | h t ih =>
    intro k h
    cases h with
    | @mk _ _ line h1 h2 h3 h4 h5 h6 h7 h8 h9 =>
      refine .mk (h2 ▸ name_ne_nil k) ?_ ?_ ?_
      · intro hnil
        have := lines_mandatory k (mem_all k) line h1
        simp only [hasMandatory, List.any_eq_true] at this
        obtain ⟨p, hp, hm⟩ := this
        have h4 := h4 p hp
        rw [hnil] at h4
        rcases p with ⟨s, c⟩
        cases c <;> simp_all [Card.mandatory, Card.Allows]
      · intro it hit
        obtain ⟨hc, ⟨p, hp, hn⟩ | ⟨hch, _⟩⟩ := h3 it hit
        swap
        · exact ⟨fun h0 => by rw [h0] at hch; revert hch; decide, hc⟩
        have := lines_names k (mem_all k) line h1
        simp only [lineNames, List.all_eq_true, decide_eq_true_eq] at this
        exact ⟨hn ▸ this p hp, hc⟩
      · intro c hc
        obtain ⟨it, hit, htok⟩ := List.mem_filterMap.mp hc
        obtain ⟨_, ⟨⟨s, card⟩, hp, hn⟩ | ⟨_, h0⟩⟩ := h3 it hit
        swap
        · rw [h0] at htok; simp at htok
        cases s with
        | rule s => have := h5 s card hp it hit hn; rw [this] at htok; simp at htok
        | tok k' => exact ih c hc k' (h7 k' card hp it hit hn c htok)

theorem forall₂_length_filter {t : AToken} {r : Root} (h : toRoot t = .ok (some r)) {n : Node} (hn : n ∈ r.nodes) :
    n.containers.length = (t.items.filter fun it => it.name = n.name).length := by
  obtain ⟨_, _, _, _, h5⟩ := C45_shape t r h
  exact (h5 n hn).length_eq.symm

theorem containers_texts {t : AToken} {r : Root} (h : toRoot t = .ok (some r)) {n : Node} (hn : n ∈ r.nodes) :
    n.containers.map RContainer.content = texts t n.name := by
  obtain ⟨_, _, _, _, h5⟩ := C45_shape t r h
  have := h5 n hn
  rw [texts]
  generalize t.items.filter (fun it => it.name = n.name) = l at this
  generalize n.containers = cs at this
  induction this with
  | nil => rfl
  | cons h1 _ ih => simp [h1.2.1, ih]

theorem exists_items {t : AToken} {r : Root} (h : toRoot t = .ok (some r)) (name : Str) : r.exists name = true ↔ ∃ it ∈ t.items, it.name = name := by
  obtain ⟨_, _, _, h4, _⟩ := C45_shape t r h
  rw [exists_iff, ← h4 name]
  simp

theorem exists_texts {t : AToken} {r : Root} (h : toRoot t = .ok (some r)) (name : Str) : r.exists name = true ↔ texts t name ≠ [] := by
  rw [exists_items h]
  simp [texts]

theorem container_item {t : AToken} {r : Root} (h : toRoot t = .ok (some r)) {n : Node} (hn : n ∈ r.nodes) {c : RContainer} (hc : c ∈ n.containers) :
    ∃ it ∈ t.items, it.name = n.name ∧ ContainerOf t it c := by
  obtain ⟨_, _, _, _, h5⟩ := C45_shape t r h
  have := h5 n hn
  have h6 : ∀ it ∈ t.items.filter (fun it => it.name = n.name), it ∈ t.items ∧ it.name = n.name := by simp
  generalize t.items.filter (fun it => it.name = n.name) = l at this h6
  generalize n.containers = cs at this hc
  induction this with
  | nil => simp at hc
  | cons h1 _ ih =>
    rcases List.mem_cons.mp hc with rfl | hc
    · exact ⟨_, (h6 _ (by simp)).1, (h6 _ (by simp)).2, h1⟩
    · exact ih (fun it hit => h6 it (List.mem_cons_of_mem _ hit)) hc

theorem literals_of {cfg : Cfg} {k : Kind} {t : AToken} {r : Root} (h : toRoot t = .ok (some r)) (hl : LiteralsT cfg k t) : Literals cfg k r := by
  have hm : ∀ n ∈ r.nodes, ∀ c ∈ n.containers, c.content ∈ texts t n.name := fun n hn c hc => by
    rw [← containers_texts h hn]; exact List.mem_map_of_mem hc
  have he := exists_texts h (lit "MINUS")
  cases k <;> try exact trivial
  · intro n hn hname c hc
    exact hl _ (hname ▸ hm n hn c hc)
  · intro n hn hname c hc
    have := hl _ (hname ▸ hm n hn c hc)
    simpa only [he] using this
  · intro n hn hname a b hab
    have h1 := containers_texts h hn
    rw [hab, hname] at h1
    have := hl a.content b.content h1.symm
    simpa only [he] using this

/-- The tokens of a tree of the grammar have roots which conform to the grammar. -/
theorem conf_post {cfg : Cfg} (t : AToken) : ∀ k, ConfT cfg k t → EqualTexts t → ∀ v ∈ t.post, ∃ k2 r, v.name = k2.name ∧ ConfT cfg k2 v ∧
    toRoot v = .ok (some r) ∧ Conf cfg k2 r := by
  induction t using AToken.induct with
  | h t ih =>
    intro k h heq
    have hconv := confT_convertible t k h
    have hT := h
    cases h with
    | @mk _ _ line h1 h2 h3 h4 h5 h6 h7 h8 h9 =>
      have hin : ∀ v ∈ t.inside, ∃ k2 r, v.name = k2.name ∧ ConfT cfg k2 v ∧ toRoot v = .ok (some r) ∧ Conf cfg k2 r := by
        intro v hv
        rw [inside_eq] at hv
        obtain ⟨c, hc, hv⟩ := List.mem_flatMap.mp hv
        obtain ⟨it, hit, htok⟩ := List.mem_filterMap.mp hc
        obtain ⟨_, ⟨⟨s, card⟩, hp, hn⟩ | ⟨_, h0⟩⟩ := h3 it hit
        swap
        · rw [h0] at htok; simp at htok
        cases s with
        | rule s => have := h5 s card hp it hit hn; rw [this] at htok; simp at htok
        | tok k' =>
          refine ih c hc k' (h7 k' card hp it hit hn c htok) (fun u hu => heq u ?_) v hv
          rw [post_eq, inside_eq]
          exact List.mem_append_left _ (List.mem_flatMap.mpr ⟨c, hc, hu⟩)
      intro v hv
      rw [post_eq] at hv
      rcases List.mem_append.mp hv with hv | hv
      · exact hin v hv
      · have : v = t := by simpa using hv
        subst this
        obtain ⟨r, hr⟩ := (C45_outcome v).2.1.mpr hconv
        obtain ⟨s1, s2, s3, s4, s5⟩ := C45_shape v r hr
        have htok : ∀ k' card, (Sym.tok k', card) ∈ line → ∀ n ∈ r.nodes, n.name = k'.name → ∀ c ∈ n.containers,
            ∃ it ∈ v.items, it.name = n.name ∧ ∃ w x u, it.token = some w ∧ c.root = some u ∧ toRoot x = .ok (some u) ∧ Conf cfg k' u ∧
              x.items.map Item.name = w.items.map Item.name := by
          intro k' card hp n hn hname c hc
          obtain ⟨it, hit, hin2, hco⟩ := container_item hr hn hc
          have h10 := h6 k' card hp it hit (hin2.trans hname)
          cases hw : it.token with
          | none => exact absurd hw h10
          | some w =>
            obtain ⟨x, u, hx, hu, hcu⟩ := hco.2.2.2 w hw
            have hwT := h7 k' card hp it hit (hin2.trans hname) w hw
            have hwname : w.name = k'.name := by cases hwT with | mk _ h _ _ _ _ _ _ _ => exact h
            have hwc : w ∈ v.children := (item_token hit hw).1
            obtain ⟨hxn, hxi⟩ := heq v (by rw [post_eq]; simp) w hwc x hx
            obtain ⟨k2, r2, e1, _, e2, e3⟩ := hin x (lastWith_mem hx).1
            have : k2 = k' := name_inj (by rw [← e1, hxn, hwname])
            subst this
            rw [hu] at e2
            simp only [Out.ok.injEq, Option.some.injEq] at e2
            subst e2
            exact ⟨it, hit, hin2, w, x, u, hw, hcu, hu, e3, hxi⟩
        refine ⟨k, r, h2, hT, hr, .mk h1 (s1.trans h2) s3 ?_ ?_ ?_ ?_ ?_ ?_ (literals_of hr h8) ?_⟩
        · intro n hn
          obtain ⟨it, hit, hname⟩ := (s4 n.name).mp (List.mem_map_of_mem hn)
          have hlen := forall₂_length_filter hr hn
          have hne : it ∈ v.items.filter (fun it => it.name = n.name) := by simp [hit, hname]
          refine ⟨?_, ?_⟩
          · intro h0
            rw [h0] at hlen
            have := List.length_pos_of_mem hne
            simp at hlen; omega
          · obtain ⟨_, ⟨p, hp, hpn⟩ | ⟨hch, _⟩⟩ := h3 it hit
            · refine .inl ⟨p, hp, hname.symm.trans hpn, ?_⟩
              have := h4 p hp
              rw [← hpn, hname] at this
              rw [hlen]; exact this
            · refine .inr ⟨hname ▸ hch, fun c hc => ?_⟩
              obtain ⟨jt, hj, hjn, hj2⟩ := container_item hr hn hc
              obtain ⟨_, ⟨p, hp, hpn⟩ | ⟨_, h0⟩⟩ := h3 jt hj
              · exact absurd (by rw [← hpn, hjn, ← hname]; exact hch) (channel_not_line k (mem_all k) line h1 p hp)
              · exact hj2.2.2.1 h0
        · intro p hp
          have := h4 p hp
          by_cases h0 : ∃ it ∈ v.items, it.name = p.1.name
          · exact .inr ((exists_items hr _).mpr h0)
          · have h0 : v.items.filter (fun it => it.name = p.1.name) = [] := by
              rw [List.filter_eq_nil_iff]
              intro it hit hc
              exact h0 ⟨it, hit, by simpa using hc⟩
            rw [h0] at this
            exact .inl this
        · intro n hn c hc
          obtain ⟨it, hit, h10, h11⟩ := container_item hr hn hc
          exact ⟨h11.1.trans h10, h11.2.1 ▸ (h3 it hit).1⟩
        · intro s card hp n hn hname c hc
          obtain ⟨it, hit, h10, h11⟩ := container_item hr hn hc
          exact h11.2.2.1 (h5 s card hp it hit (h10.trans hname))
        · intro k' card hp n hn hname c hc
          obtain ⟨it, hit, h10, w, x, u, _, h11, _⟩ := htok k' card hp n hn hname c hc
          simp [h11]
        · intro k' card hp n hn hname c hc u hu
          obtain ⟨it, hit, h10, w, x, u', _, h11, _, h12, _⟩ := htok k' card hp n hn hname c hc
          rw [hu] at h11
          simp only [Option.some.injEq] at h11
          exact h11 ▸ h12
        · cases k <;> try exact trivial
          intro n hn hname c hc u hu
          simp only [grammar, List.mem_cons, List.not_mem_nil, or_false] at h1
          have hline : ∃ card, (Sym.tok .assigneeNames, card) ∈ line := by
            obtain ⟨it, hit, hin2, _⟩ := container_item hr hn hc
            obtain ⟨_, ⟨⟨s, card⟩, hp, hpn⟩ | ⟨hch, _⟩⟩ := h3 it hit
            swap
            · exact absurd (hin2.trans hname) (channel_ne_kind hch .assigneeNames)
            cases s with
            | rule s => exact absurd (hpn.symm.trans (hin2.trans hname)) (rule_ne_kind (k := .forStatement) (k' := .assigneeNames) (by simpa [grammar] using h1) hp)
            | tok k3 =>
              have : k3 = .assigneeNames := name_inj (hpn.symm.trans (hin2.trans hname))
              exact ⟨card, this ▸ hp⟩
          obtain ⟨card, hp⟩ := hline
          obtain ⟨it, hit, h10, w, x, u', hw, h11, h12, _, hxi⟩ := htok .assigneeNames card hp n hn hname c hc
          rw [hu] at h11
          simp only [Option.some.injEq] at h11
          subst h11
          obtain ⟨jt, hj, hjn⟩ := h9 it hit (h10.trans hname) w hw
          rw [exists_items h12]
          have : jt.name ∈ x.items.map Item.name := by rw [hxi]; exact List.mem_map_of_mem hj
          obtain ⟨jt', h13, h14⟩ := List.mem_map.mp this
          exact ⟨jt', h13, h14.trans hjn⟩

end Verif.Base
