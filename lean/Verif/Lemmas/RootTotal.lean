import Verif.Props.Derivation
import Verif.Props.Roots

/-!
# Derivation trees can be converted to roots
-/

namespace Verif.Lexer
open Verif.Patterns Verif.Cardinality

/-- The rules of a line have names. -/
def NamedRules (l : GLine) : Prop := ∀ e, .element e ∈ l → ∀ r, e.content = .rule r → r.name ≠ []

/-- Children which can be converted. -/
def ItemsOk (ms : List AMatch) : Prop := ∀ m ∈ ms, ∀ it ∈ m.items, it.name ≠ [] ∧ it.content ≠ [] ∧ ∀ u, it.token = some u → Convertible u

theorem ItemsOk.append {a b : List AMatch} (h1 : ItemsOk a) (h2 : ItemsOk b) : ItemsOk (a ++ b) := by
  intro m hm
  rcases List.mem_append.mp hm with hm | hm
  · exact h1 m hm
  · exact h2 m hm

theorem ItemsOk.cons {a : AMatch} {b : List AMatch} (h1 : ∀ it ∈ a.items, it.name ≠ [] ∧ it.content ≠ [] ∧ ∀ u, it.token = some u → Convertible u)
    (h2 : ItemsOk b) : ItemsOk (a :: b) := by
  intro m hm
  rcases List.mem_cons.mp hm with rfl | hm
  · exact h1
  · exact h2 m hm

theorem items_ne {ms : List AMatch} (h : matchesDiscovery ms ≠ []) (ho : ItemsOk ms) : ms.flatMap AMatch.items ≠ [] := by
  induction ms with
  | nil => simp [matchesDiscovery] at h
  | cons m ms ih =>
    intro he
    simp only [List.flatMap_cons, List.append_eq_nil_iff] at he
    obtain ⟨h1, h2⟩ := he
    have h3 : matchesDiscovery ms ≠ [] := by
      cases m with
      | rule n r => simp [AMatch.items] at h1
      | token n l =>
        simp [AMatch.items] at h1
        subst h1
        simpa [matchesDiscovery, AMatch.discovery, aTokensDiscovery] using h
    exact ih h3 (fun m hm => ho m (by simp [hm])) h2

theorem convertible_mk {n : Str} {i : Nat} {ms : List AMatch} (hn : n ≠ []) (h : matchesDiscovery ms ≠ []) (ho : ItemsOk ms) : Convertible (.mk n i ms) := by
  refine .mk hn (items_ne h ho) ?_ ?_
  · intro it hit
    obtain ⟨m, hm, hi⟩ := List.mem_flatMap.mp hit
    have := ho m hm it hi
    exact ⟨this.1, this.2.1⟩
  · intro c hc
    obtain ⟨it, hit, e⟩ := List.mem_filterMap.mp hc
    obtain ⟨m, hm, hi⟩ := List.mem_flatMap.mp hit
    exact (ho m hm it hi).2.2 c e

section
variable {ts chans : List GToken} {Cut : GToken → GElement → Str → Prop} (hn : ∀ u ∈ ts, u.name ≠ [])
  (hr : ∀ t, t ∈ ts ∨ t ∈ chans → ∀ l ∈ t.must, NamedRules l)
include hn hr

mutual
theorem Tree.convertible : ∀ {t : GToken} {s : Str} {a : AToken} {c : Str → Nat}, Tree ts chans Cut t s a c → t ∈ ts → Convertible a ∧ a.discovery ≠ []
  | _, _, _, _, .mk h1 h2 h3, ht => by
    have := TreeLine.items h3 (hr _ (.inl ht) _ (List.mem_of_getElem? h1))
    exact ⟨convertible_mk (hn _ ht) h2 this, h2⟩
theorem Trees.convertible : ∀ {t : GToken} {s : Str} {as : List AToken} {c : Str → Nat}, Trees ts chans Cut t s as c → t ∈ ts →
    ∀ a ∈ as, Convertible a ∧ a.discovery ≠ []
  | _, _, _, _, .nil, _ => by simp
  | _, _, _, _, .cons _ h2 h3, ht => by
    have q1 := Tree.convertible h2 ht
    have q2 := Trees.convertible h3 ht
    intro a ha
    rcases List.mem_cons.mp ha with rfl | ha
    · exact q1
    · exact q2 a ha
theorem TreeLine.items : ∀ {t : GToken} {l : GLine} {s : Str} {ms : List AMatch} {c : Str → Nat}, TreeLine ts chans Cut t l s ms c → NamedRules l → ItemsOk ms
  | _, _, _, _, _, .done, _ => by intro m hm; cases hm
  | _, _, _, _, _, .switch h, hl => TreeLine.items h (fun e he => hl e (by simp [he]))
  | _, _, _, _, _, .absent _ hg _ h, hl => by
    have q1 := TreeGap.items hg
    have q2 := TreeLine.items h (fun e he => hl e (by simp [he]))
    exact q1.append q2
  | _, _, _, _, _, .token hg _ _ hu _ _ hts _ _ h, hl => by
    have q1 := TreeGap.items hg
    have q2 := TreeLine.items h (fun e he => hl e (by simp [he]))
    have q3 := Trees.convertible hts hu
    refine q1.append (ItemsOk.cons ?_ q2)
    intro it hit
    simp only [AMatch.items, List.mem_map] at hit
    obtain ⟨a, ha, rfl⟩ := hit
    refine ⟨hn _ hu, (q3 a ha).2, ?_⟩
    intro u e
    simp only [Option.some.injEq] at e
    subst e
    exact (q3 _ ha).1
  | _, _, _, _, _, .rule (e := e) (r := r) hg _ he hws htext _ hx _ h, hl => by
    have q1 := TreeGap.items hg
    have q2 := TreeLine.items h (fun e he => hl e (by simp [he]))
    have q3 := hl e (by simp) r he
    refine q1.append (ItemsOk.cons ?_ q2)
    intro it hit
    simp only [AMatch.items, List.mem_singleton] at hit
    subst hit
    refine ⟨q3, ?_, by simp⟩
    dsimp only
    rw [hx]
    rename_i ws _ _
    obtain ⟨w, ws', rfl⟩ := List.exists_cons_of_ne_nil hws
    intro h0
    simp only [List.flatten_cons, List.append_eq_nil_iff] at h0
    exact RuleText_nonempty (htext.texts w (by simp)) h0.1
  | _, _, _, _, _, .cut _, _ => by intro m hm; cases hm
theorem TreeGap.items : ∀ {s : Str} {g : List AMatch}, TreeGap ts chans Cut s g → ItemsOk g
  | _, _, .nil => by intro m hm; cases hm
  | _, _, .cons hc hl _ h _ hg => by
    have q1 := TreeLine.items h (hr _ (.inr hc) _ hl)
    have q2 := TreeGap.items hg
    exact q1.append q2
end
end

end Verif.Lexer
