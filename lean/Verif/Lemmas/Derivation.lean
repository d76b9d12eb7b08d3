import Verif.Spec.Derivation
import Verif.Lemmas.AstValid
import Verif.Lemmas.LexerLang
import Verif.Lemmas.GrammarPlain

/-! # Trees of the matcher are derivation trees -/

namespace Verif.Lexer
open Verif.Patterns Verif.Cardinality

section bound
variable {ts chans : List GToken} {Cut : GToken → GElement → Str → Prop}

mutual
theorem tree_count : ∀ {t : GToken} {s : Str} {a : AToken} {c : Str → Nat}, Tree ts chans Cut t s a c → ∀ n, c n ≤ a.discovery.length
  | _, _, _, _, .mk _ _ h, n => by
    simp only [AToken.discovery]
    exact treeLine_count h n
theorem trees_count : ∀ {t : GToken} {s : Str} {a : List AToken} {c : Str → Nat}, Trees ts chans Cut t s a c →
    (∀ n, c n ≤ (aTokensDiscovery a).length) ∧ a.length ≤ (aTokensDiscovery a).length
  | _, _, _, _, .nil => by simp
  | _, _, _, _, .cons _ h1 h2 => by
    obtain ⟨i1, i2⟩ := trees_count h2
    have h0 := tree_count h1
    have hne := tree_ne h1
    have := List.length_pos_iff.2 hne
    simp only [aTokensDiscovery, List.length_append, List.length_cons]
    refine ⟨fun n => ?_, by omega⟩
    have := i1 n
    have := h0 n
    omega
theorem treeLine_count : ∀ {t : GToken} {l : GLine} {s : Str} {a : List AMatch} {c : Str → Nat}, TreeLine ts chans Cut t l s a c →
    ∀ n, c n ≤ (matchesDiscovery a).length
  | _, _, _, _, _, .done, n => by simp
  | _, _, _, _, _, .switch h, n => treeLine_count h n
  | _, _, _, _, _, .absent _ _ _ h, n => by
    have := treeLine_count h n
    rw [matchesDiscovery_append, List.length_append]
    omega
  | _, _, _, _, _, .token _ _ _ _ _ _ h1 _ _ h, n => by
    have := treeLine_count h n
    have := (trees_count h1).2
    rw [matchesDiscovery_append, List.length_append, matchesDiscovery, List.length_append, AMatch.discovery]
    dsimp only
    split <;> omega
  | _, _, _, _, _, .rule (ws := ws) _ _ _ _ hw _ hx _ h, n => by
    have := treeLine_count h n
    have := length_le_flatten ws (fun w hw' => RuleText_nonempty (hw.texts w hw'))
    rw [matchesDiscovery_append, List.length_append, matchesDiscovery, List.length_append, AMatch.discovery, hx]
    dsimp only
    split <;> omega
  | _, _, _, _, _, .cut _, n => by simp
theorem tree_ne : ∀ {t : GToken} {s : Str} {a : AToken} {c : Str → Nat}, Tree ts chans Cut t s a c → a.discovery ≠ []
  | _, _, _, _, .mk _ h _ => by simpa only [AToken.discovery] using h
end
end bound

/-- What a container gives: nothing, trees of a token, or a text of a rule. -/
inductive Core (ts chans : List GToken) (Cut : GToken → GElement → Str → Prop) (e : GElement) (s : Str) : List AMatch → (Str → Nat) → Prop
  | absent : SpecAllows e.times 0 → Core ts chans Cut e s [] (fun _ => 0)
  | token {u : GToken} {specs : List GSpec} {as : List AToken} {k : Str → Nat} {rest : Str} :
      e.content = .token u.name specs → u ∈ ts → as ≠ [] → SpecAllows e.times as.length → Trees ts chans Cut u s as k →
      (∀ sp ∈ specs, SpecAllows (.specific sp.card) (k sp.content.name)) → s = aTokensDiscovery as ++ rest →
      Core ts chans Cut e s [.token u.name as] (fun n => if u.name = n then as.length else 0)
  | rule {r : Rule} {ws : List Str} {x : AResult} {rest : Str} :
      e.content = .rule r → ws ≠ [] → RuleFinds r s ws → SpecAllows e.times ws.length → x.content = ws.flatten →
      s = ws.flatten ++ rest → Core ts chans Cut e s [.rule r.name x] (fun n => if r.name = n then ws.length else 0)

theorem Core.line {ts chans : List GToken} {Cut : GToken → GElement → Str → Prop} {t : GToken} {e : GElement} {is : GLine} {s s' rest : Str}
    {g core ms : List AMatch} {k c : Str → Nat} (hg : TreeGap ts chans Cut s g) (hs : s = matchesDiscovery g ++ s') (h : Core ts chans Cut e s' core k)
    (hr : s' = matchesDiscovery core ++ rest) (hl : TreeLine ts chans Cut t is rest ms c) :
    TreeLine ts chans Cut t (.element e :: is) s (g ++ core ++ ms) (fun n => k n + c n) := by
  cases h with
  | absent h0 =>
    simp only [matchesDiscovery, List.nil_append] at hr
    subst hr
    simpa using TreeLine.absent h0 hg hs hl
  | token h1 h2 h3 h4 h5 h6 h7 =>
    rw [List.append_assoc]
    refine .token hg hs h1 h2 h3 h4 h5 h6 ?_ hl
    simpa [matchesDiscovery, AMatch.discovery] using hr
  | rule h1 h2 h3 h4 h5 h6 =>
    rw [List.append_assoc]
    refine .rule hg hs h1 h2 h3 h4 h5 ?_ hl
    simpa [matchesDiscovery, AMatch.discovery, h5] using hr

theorem unfLines_index {g : PathEnv} {stack : List Str} {parent : Str} {ls : List GLine} {xs : List Line} (h : UnfLines g stack parent ls xs)
    {i : Nat} {x : Line} (hx : xs[i]? = some x) : ∃ l, ls[i]? = some l ∧ UnfLine g stack parent (elementsIn l) l x := by
  induction ls generalizing xs i with
  | nil => cases h; simp at hx
  | cons l ls ih =>
    cases h with
    | cons h0 h1 h2 =>
      cases i with
      | zero => simp at hx; subst hx; exact ⟨l, rfl, h1⟩
      | succ i => simp at hx; simpa using ih h2 hx

theorem buildSpecifiers_mem {specs : List GSpec} {sp : List Spec} (h : buildSpecifiers specs = .ok sp) {x : GSpec} (hx : x ∈ specs) :
    ⟨x.content.name, x.card⟩ ∈ sp := by
  unfold buildSpecifiers at h
  induction specs generalizing sp with
  | nil => cases hx
  | cons y ys ih =>
    simp only [mapOut, Out.bind_eq_ok] at h
    obtain ⟨a, ha, as, has, h⟩ := h
    simp at h
    subst h
    rcases List.mem_cons.1 hx with rfl | hx
    · unfold specifierNow at ha
      split at ha
      · cases ha
      · simp at ha; subst ha; simp
    · exact List.mem_cons_of_mem _ (ih has hx)

/-- The rest of a compiled line from its next container on. -/
theorem nextContainer_unf {g : PathEnv} {stack : List Str} {parent : Str} {n : Nat} {l : GLine} {x : Line} (h : UnfLine g stack parent n l x) :
    (nextContainer x = none ∧ ∀ ts chans Cut t s, TreeLine ts chans Cut t l s [] (fun _ => 0)) ∨
    ∃ c rest e is, nextContainer x = some (c, rest) ∧ UnfC g stack parent n e c ∧ UnfLine g stack parent n is rest ∧ .element e ∈ l ∧ (∀ i ∈ is, i ∈ l) ∧
      ∀ ts chans Cut t s ms k, TreeLine ts chans Cut t (.element e :: is) s ms k → TreeLine ts chans Cut t l s ms k := by
  induction l generalizing x with
  | nil => cases h; exact .inl ⟨rfl, fun _ _ _ _ _ => .done⟩
  | cons i is ih =>
    cases h with
    | switch h =>
      rcases ih h with ⟨h1, h2⟩ | ⟨c, rest, e, is', h1, h2, h3, h4, h5, h6⟩
      · exact .inl ⟨h1, fun _ _ _ _ _ => .switch (h2 ..)⟩
      · exact .inr ⟨c, rest, e, is', h1, h2, h3, by simp [h4], fun i hi => by simp [h5 i hi], fun _ _ _ _ _ _ _ h => .switch (h6 _ _ _ _ _ _ _ h)⟩
    | elem h1 h2 => exact .inr ⟨_, _, _, is, rfl, h1, h2, by simp, fun i hi => by simp [hi], fun _ _ _ _ _ _ _ h => h⟩

end Verif.Lexer
