import Verif.Spec.BaseWritten
import Verif.Lemmas.BaseReads
import Verif.Props.BaseParser

/-! # The written object is a reading -/

namespace Verif.Base
open Verif.Patterns Verif.Lexer

variable {cfg : Cfg} {k : Kind} {r : Root} {α : Type}

/-- A line with the one name does not have the other. -/
def excludes (k : Kind) (a b : Str) : Bool :=
  (!channelNames.contains a) && (!channelNames.contains b) && (grammar k).all fun line => (line.all fun p => p.1.name ≠ a) || line.all fun p => p.1.name ≠ b

theorem excludes_absent (h : Conf cfg k r) {a b : Str} (he : r.exists a = true) (hx : excludes k a b = true) : r.exists b = false := by
  simp only [excludes, Bool.and_eq_true, Bool.not_eq_true', List.all_eq_true, Bool.or_eq_true, decide_eq_true_eq] at hx
  obtain ⟨⟨h1, h2⟩, h3⟩ := hx
  have h1 : a ∉ channelNames := by simpa using h1
  have h2 : b ∉ channelNames := by simpa using h2
  obtain ⟨line, hl⟩ := h.line
  rcases h3 line hl.mem with h4 | h4
  · rw [hl.not_exists a h1 h4] at he; simp at he
  · exact hl.not_exists b h2 h4

theorem Has.exists {W : Kind → Root → V → Prop} {k' : Kind} {v : V} (h : Has W r k' v) : r.exists k'.name = true := by
  cases h with | mk h1 _ => exact child_exists h1

theorem HasAll.exists {W : Kind → Root → V → Prop} {k' : Kind} {vs : List V} (h : HasAll W r k' vs) : r.exists k'.name = true := by
  cases h with | mk h1 _ => exact children_exists h1

/-- The written objects of the trees inside are readings. -/
abbrev ReadInside (cfg : Cfg) (r : Root) : Prop :=
  ∀ u k v, sizeOf u < sizeOf r → Conf cfg k u → Written cfg k u v → ExecuteRun (baseEvents cfg) u (.ok [v])

theorem Has.may (h : Conf cfg k r) (ih : ReadInside cfg r) {k' : Kind} {v : V} (hw : Has (Written cfg) r k' v) : MayRead cfg k' r v := by
  cases hw with
  | mk h1 h2 => exact may_own k' h h1 (ih _ _ _ (inside_child h1) (part_conf h h1) h2)

theorem children_size {name : Str} {us : List Root} (h : Children r name us) : ∀ u ∈ us, sizeOf u < sizeOf r := by
  obtain ⟨n, hn, h1, hc⟩ := h
  intro u hu
  have : some u ∈ n.containers.map RContainer.root := by rw [hc]; exact List.mem_map_of_mem hu
  obtain ⟨c, h2, h3⟩ := List.mem_map.mp this
  exact sizeOf_inside (inside_node hn h2 h3)

theorem Each.run {k' : Kind} {us : List Root} {vs : List V} (h : Each (Written cfg) k' us vs)
    (hr : ∀ u ∈ us, Conf cfg k' u ∧ ∀ v, Written cfg k' u v → ExecuteRun (baseEvents cfg) u (.ok [v])) :
    List.Forall₂ (fun u v => Conf cfg k' u ∧ ExecuteRun (baseEvents cfg) u (.ok [v])) us vs := by
  induction us generalizing vs with
  | nil => cases h; exact .nil
  | cons u us ihs =>
    cases h with
    | cons h1 h2 =>
      have := hr u (by simp)
      exact .cons ⟨this.1, this.2 _ h1⟩ (ihs h2 fun u hu => hr u (by simp [hu]))

theorem call_all (h : Conf cfg k r) (ih : ReadInside cfg r) {k' : Kind} {vs : List V} (hw : HasAll (Written cfg) r k' vs) (hv : vs ≠ [])
    {p : List V → P} {o : Out V} (hp : ProgRun (baseEvents cfg) (p vs) o) : ProgRun (baseEvents cfg) (call k'.name r p) o := by
  cases hw with
  | mk h1 h2 =>
    have hconf := parts_conf h h1
    have hsize := children_size h1
    obtain ⟨n, hn, h3, h4⟩ := h1
    exact .trigger (trigger_sees (.own hn h3) hv h4 (h2.run fun u hu => ⟨hconf u hu, fun v => ih u _ v (hsize u hu) (hconf u hu)⟩)) (by simp) hp

/-- The texts of a rule. -/
theorem call_text (h : Conf cfg k r) {name : Str} {l : List Str} (ht : Texts r name l) (hno : ∀ k : Kind, k.name ≠ name)
    {p : List V → P} {o : Out V} (hp : ProgRun (baseEvents cfg) (p (l.map .text)) o) : ProgRun (baseEvents cfg) (call name r p) o := by
  obtain ⟨line, hl⟩ := h.line
  obtain ⟨n, hn, h1, rfl⟩ := ht
  have hroots : ∀ c ∈ n.containers, c.root = none := by
    obtain ⟨_, ⟨⟨s, card⟩, hp, hp2, hcard⟩ | ⟨_, hch⟩⟩ := hl.nodes n hn
    · cases s with
      | tok k3 => exact absurd (hp2.symm.trans h1) (hno k3)
      | rule s => exact hl.rules s card hp n hn hp2
    · exact hch
  have hc : ∀ cs : List RContainer, (∀ c ∈ cs, c.root = none) → ContainersRun (baseEvents cfg) name cs (.ok ((cs.map RContainer.content).map .text)) := by
    intro cs
    induction cs with
    | nil => exact fun _ => .nil
    | cons c cs ih => exact fun h => .cons (.content (h c (by simp))) (ih fun c hc => h c (by simp [hc]))
  have hs := (Sees.own hn h1).scan
  have hne : ((n.containers.map RContainer.content).map Val.text : List V) ≠ [] := by simpa using (hl.nodes n hn).1
  have := TriggerRun.node hs (hc _ hroots)
  rw [resultNow_list hne] at this
  exact .trigger this (by simp) hp

theorem rule_not_kind {name : Str} (h : ∃ c l, name = c :: l ∧ c.toNat < 97) (k : Kind) : k.name ≠ name := by
  obtain ⟨c, l, rfl, h1⟩ := h
  obtain ⟨c', l', h2, h3⟩ := kind_small k
  rw [h2]
  intro h
  simp only [List.cons.injEq] at h
  rw [h.1] at h3
  omega

theorem need_text (h : Conf cfg k r) {name : Str} {s : Str} (ht : Texts r name [s]) (hno : ∀ k : Kind, k.name ≠ name)
    {p : Str → P} {o : Out V} (hp : ProgRun (baseEvents cfg) (p s) o) : ProgRun (baseEvents cfg) (need name r asText p) o :=
  call_text h ht hno (by simpa [assertFirst, assert, asText, step] using hp)

theorem opt_opt (h : Conf cfg k r) (ih : ReadInside cfg r) {k' : Kind} {mk : α → V} {f : V → Option α} (hf : ∀ a, f (mk a) = some a)
    {x : Option α} (hw : HasOpt (Written cfg) r k' (x.map mk)) {p : Option α → P} {o : Out V}
    (hp : ProgRun (baseEvents cfg) (p x) o) : ProgRun (baseEvents cfg) (opt k'.name r f p) o := by
  cases x with
  | none =>
    cases hw with
    | none he => exact opt_none he hp
  | some a =>
    cases hw with
    | some hw => exact opt_may hw.exists (hw.may h ih) (hf a) hp

theorem comma_any (h : Conf cfg k r) (ih : ReadInside cfg r) {item comma : Kind} {mk : α → V} {f : V → Option α} (hf : ∀ a, f (mk a) = some a)
    {a : α} {l : List α} (h1 : Has (Written cfg) r item (mk a)) (h2 : HasAny (Written cfg) r comma (l.map mk))
    {p : List α → P} {o : Out V} (hp : ProgRun (baseEvents cfg) (p (a :: l)) o) :
    ProgRun (baseEvents cfg) (commaList item.name comma.name f r p) o := by
  refine need_may (h1.may h ih) (hf a) ?_
  have hmap : ∀ l : List α, assertAll f (l.map mk) = .ok l := by
    intro l
    exact assertAll_of (by induction l with | nil => exact .nil | cons a l ih => exact .cons (hf a) ih)
  generalize hv : l.map mk = vs at h2
  cases h2 with
  | none he =>
    rw [if_neg (by simp [he])]
    have : l = [] := by simpa using hv
    subst this
    exact hp
  | some hw =>
    subst hv
    by_cases hl : l = []
    · subst hl
      exfalso
      cases hw with
      | mk h3 h4 =>
        cases h4
        obtain ⟨n, hn, _, h5⟩ := h3
        obtain ⟨line, hl⟩ := h.line
        exact (hl.nodes n hn).1 (by simpa using h5)
    · rw [if_pos hw.exists]
      refine call_all h ih hw (by simpa using hl) ?_
      simpa [hmap, step] using hp

theorem step_ok {o : Out α} {a : α} (h : o = .ok a) {p : α → P} {x : Out V} (hp : ProgRun (baseEvents cfg) (p a) x) :
    ProgRun (baseEvents cfg) (step o p) x := by subst h; exact hp

theorem ret_ok {o : Out α} {a : α} (h : o = .ok a) {mk : α → BVal} : ProgRun (baseEvents cfg) (ret o mk) (.ok (.other (mk a))) := by
  subst h; exact (run_done _ _).mpr rfl

theorem if_yes {b : Bool} (h : b = true) {p q : P} {x : Out V} (hp : ProgRun (baseEvents cfg) p x) : ProgRun (baseEvents cfg) (if b then p else q) x := by
  rwa [if_pos h]

theorem if_no {b : Bool} (h : b = false) {p q : P} {x : Out V} (hp : ProgRun (baseEvents cfg) q x) : ProgRun (baseEvents cfg) (if b then p else q) x := by
  rwa [if_neg (by simp [h])]

theorem decimal_eq {s : Str} {m n : Nat} (h1 : DecimalText s m) (h2 : DecimalText s n) : m = n := h1.2.2.trans h2.2.2.symm

theorem written_uint {s : Str} {b n : Nat} (h : DecimalText s n) (hz : ∃ z, parseUint s b = .ok z) : parseUint s b = .ok n := by
  obtain ⟨z, hz⟩ := hz
  rw [hz, decimal_eq h ((C72_unsigned s b z).mp hz).1]

theorem fetch_texts (h : Conf cfg k r) {name : Str} {l : List Str} (ht : Texts r name l) :
    ∃ n, r.fetch name = .ok n ∧ n.containers.map RContainer.content = l := by
  obtain ⟨n, hn, h1, h2⟩ := ht
  obtain ⟨line, hl⟩ := h.line
  refine ⟨n, ?_, h2⟩
  rw [Root.fetch]
  cases hf : r.nodes.find? (fun n => n.name = name) with
  | none => exact absurd h1 (by simpa using List.find?_eq_none.mp hf n hn)
  | some m =>
    have h3 : m.name = name := by simpa using List.find?_some hf
    have := List.inj_on_of_nodup_map hl.nodup (List.mem_of_find?_eq_some hf) hn (h3.trans h1.symm)
    rw [this]

end Verif.Base
