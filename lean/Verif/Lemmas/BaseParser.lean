import Verif.Spec.BaseParser
import Verif.Lemmas.BaseSafeMore
import Mathlib.Data.Nat.Digits.Lemmas

/-! # Lemmas about the parser of the base language -/

namespace Verif.Base
open Verif.Patterns Verif.Lexer

/-! ## Numbers -/

theorem decimal?_iff (s : Str) (acc n : Nat) : decimal? s acc = some n ↔
    (∀ c ∈ s, 48 ≤ c.toNat ∧ c.toNat ≤ 57) ∧ n = acc * 10 ^ s.length + Nat.ofDigits 10 (s.reverse.map fun c => c.toNat - 48) := by
  induction s generalizing acc with
  | nil => simp [decimal?, eq_comm]
  | cons c cs ih =>
    rw [decimal?]
    by_cases h : 48 ≤ c.toNat ∧ c.toNat ≤ 57
    · rw [digit?, if_pos h]
      simp only [ih, List.mem_cons, forall_eq_or_imp, h, true_and, List.reverse_cons, List.map_append, List.map_cons,
        List.map_nil, Nat.ofDigits_append, List.length_map, List.length_reverse, Nat.ofDigits_singleton, List.length_cons, and_self]
      have : (acc * 10 + (c.toNat - 48)) * 10 ^ cs.length = acc * 10 ^ (cs.length + 1) + 10 ^ cs.length * (c.toNat - 48) := by ring
      rw [this]
      constructor
      · rintro ⟨h1, h2⟩; exact ⟨h1, by omega⟩
      · rintro ⟨h1, h2⟩; exact ⟨h1, by omega⟩
    · simp only [digit?, if_neg h]
      constructor
      · simp
      · rintro ⟨h1, _⟩; exact absurd (h1 c (by simp)) h

theorem parseUint_ne_panic (s : Str) (b : Nat) : parseUint s b ≠ .panic := by
  unfold parseUint
  repeat' split
  all_goals simp

theorem parseNeg_ne_panic (s : Str) (b : Nat) : parseNeg s b ≠ .panic := by
  unfold parseNeg
  repeat' split
  all_goals simp

theorem decimal?_text (s : Str) (n : Nat) : (s ≠ [] ∧ decimal? s 0 = some n) ↔ DecimalText s n := by
  rw [decimal?_iff, DecimalText]; simp

theorem decimalText_spec (n : Nat) : DecimalText (decimalText n) n := by
  have key : ∀ l : List Nat, (∀ d ∈ l, d < 10) → ∀ c ∈ (l.map fun d => UInt8.ofNat (d + 48)), 48 ≤ c.toNat ∧ c.toNat ≤ 57 := by
    intro l hl c hc
    obtain ⟨d, hd, rfl⟩ := List.mem_map.mp hc
    have := hl d hd
    rw [UInt8.toNat_ofNat']
    omega
  have inv : ∀ l : List Nat, (∀ d ∈ l, d < 10) → (l.map fun d => (UInt8.ofNat (d + 48)).toNat - 48) = l := by
    intro l hl
    conv_rhs => rw [← List.map_id l]
    refine List.map_congr_left fun d hd => ?_
    have := hl d hd
    rw [UInt8.toNat_ofNat', id]
    omega
  unfold decimalText
  by_cases hn : n = 0
  · subst hn
    refine ⟨by simp, ?_, by simp⟩
    rw [if_pos rfl]
    exact key [0] (by simp)
  · rw [if_neg hn]
    have hd : ∀ d ∈ Nat.digits 10 n, d < 10 := fun d hd => Nat.digits_lt_base (by omega) hd
    refine ⟨?_, key _ (by simpa using hd), ?_⟩
    · simpa using Nat.digits_ne_nil_iff_ne_zero.mpr hn
    · rw [← List.map_reverse, List.reverse_reverse, List.map_map]
      have := inv _ hd
      simp only [Function.comp_def]
      rw [this, Nat.ofDigits_digits]

/-! ## Leaf roots -/

theorem trigger_leaf {cfg : Cfg} {r : Root} (hr : Leaf r) {name : Str} {l : List Str} (ht : Texts r name l) (x : Out (List V)) :
    TriggerRun (baseEvents cfg) name r x ↔ x = .ok (l.map .text) := by
  obtain ⟨n, hn, hname, rfl⟩ := ht
  obtain ⟨hnd, hr⟩ := hr
  have hall : ∀ x, NodesScan name r.nodes x → x = .ok (some (.node n)) := by
    intro x hx
    obtain ⟨h1, h2⟩ := hx.scanOk
    cases x with
    | panic => exact h1.elim
    | err => exact absurd hname (h1 _ (.mem hn (.self n)))
    | ok o =>
      cases o with
      | none => exact absurd rfl h2
      | some f =>
        cases hx.top rfl with
        | @mem _ m _ hm h =>
          cases h with
          | self h =>
            have : m = n := List.inj_on_of_nodup_map hnd hm hn (h.trans hname.symm)
            rw [this]
          | sub h hc h' =>
            obtain ⟨h3, h4⟩ := (hr m hm).2 _ hc
            cases h' with
            | self h5 => exact absurd (h4.symm.trans h5) h
            | sub _ h5 _ => rw [h3] at h5; simp at h5
  have hne : (n.containers.map fun c => (Val.text c.content : V)) ≠ [] := by simpa using (hr n hn).1
  have hroots : ∀ c ∈ n.containers, c.root = none := fun c hc => ((hr n hn).2 c hc).1
  have hmap : (n.containers.map RContainer.content).map (Val.text : Str → V) = n.containers.map fun c => .text c.content := by
    simp
  rw [hmap]
  constructor
  · intro h
    have no : ∀ f, f ≠ .node n → ¬ NodesScan name r.nodes (.ok (some f)) := fun f hf hs => hf (by simpa using hall _ hs)
    cases h with
    | err h => have := hall _ h; simp at this
    | nothing h => have := hall _ h; simp at this
    | root h => exact absurd h (no _ (by simp))
    | rootErr h => exact absurd h (no _ (by simp))
    | rootPanic h => exact absurd h (no _ (by simp))
    | container h => exact absurd h (no _ (by simp))
    | containerErr h => exact absurd h (no _ (by simp))
    | containerPanic h => exact absurd h (no _ (by simp))
    | @node _ _ m l h h' =>
      have := hall _ h; simp at this; subst this
      have := containers_rule hroots h'
      simp only [Out.ok.injEq] at this
      subst this
      exact resultNow_list hne
    | @nodeErr _ _ m h h' =>
      have := hall _ h; simp at this; subst this
      have := containers_rule hroots h'
      simp at this
    | @nodePanic _ _ m h h' =>
      have := hall _ h; simp at this; subst this
      have := containers_rule hroots h'
      simp at this
  · rintro rfl
    obtain ⟨x, hx, _⟩ := nodesScan_total name r
    have := hall _ hx
    subst this
    rw [← resultNow_list hne]
    refine .node hx (containersRun_ok.mpr ?_)
    have : ∀ cs : List RContainer, (∀ c ∈ cs, c.root = none) → List.Forall₂ (ContainerValue (baseEvents cfg) name) cs
        (cs.map fun c => .text c.content) := by
      intro cs hcs
      induction cs with
      | nil => exact .nil
      | cons c cs ih => exact .cons (.text (hcs c (by simp))) (ih fun c h => hcs c (by simp [h]))
    exact this _ hroots

theorem Texts.exists {r : Root} {name : Str} {l : List Str} (h : Texts r name l) : r.exists name = true := by
  obtain ⟨n, h1, h2, _⟩ := h
  exact (exists_iff r name).mpr ⟨n, h1, h2⟩

theorem run_call {cfg : Cfg} {name : Str} {r : Root} {k : List V → P} {l : List V}
    (hx : ∀ x, TriggerRun (baseEvents cfg) name r x ↔ x = .ok l) (o : Out V) :
    ProgRun (baseEvents cfg) (call name r k) o ↔ ProgRun (baseEvents cfg) (k l) o := by
  constructor
  · intro h
    cases h with
    | triggerPanic h => have := (hx _).mp h; simp at this
    | trigger h _ ho => have := (hx _).mp h; subst this; exact ho
  · intro h
    exact .trigger ((hx _).mpr rfl) (by simp) h

theorem run_done {cfg : Cfg} (o o' : Out V) : ProgRun (baseEvents cfg) (.done o) o' ↔ o' = o :=
  ⟨fun h => by cases h; rfl, fun h => by subst h; exact .done _⟩

end Verif.Base
