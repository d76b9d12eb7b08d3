import Verif.Lemmas.GrammarOk

namespace Verif.Lexer
open Verif.Patterns Verif.Cardinality

theorem unfLines_get {g : PathEnv} {stack : List Str} {parent : Str} {ls : List GLine} : ∀ {xs : List Line},
    UnfLines g stack parent ls xs →
    (∀ l ∈ ls, ∃ x ∈ xs, UnfLine g stack parent (elementsIn l) l x) ∧
    (∀ x ∈ xs, ∃ l ∈ ls, x ≠ [] ∧ UnfLine g stack parent (elementsIn l) l x) := by
  induction ls with
  | nil => intro xs h; cases h; simp
  | cons l ls ih =>
    intro xs h
    cases h with
    | cons h0 h1 h2 =>
      obtain ⟨a, b⟩ := ih h2
      refine ⟨?_, ?_⟩
      · intro l' hl
        rcases List.mem_cons.mp hl with rfl | hl
        · exact ⟨_, by simp, h1⟩
        · obtain ⟨x, hx, h⟩ := a l' hl; exact ⟨x, by simp [hx], h⟩
      · intro x hx
        rcases List.mem_cons.mp hx with rfl | hx
        · exact ⟨_, by simp, h0, h1⟩
        · obtain ⟨l', hl, h⟩ := b x hx; exact ⟨l', by simp [hl], h⟩

/-- All the names of the stack are declared. -/
def StackOk (g : PathEnv) (stack : List Str) : Prop := ∀ n ∈ stack, ∃ u ∈ g.tokens.list, u.name = n

/-- The elements of the tokens of the grammar are found in the dependencies. -/
def Resolves (g : PathEnv) (deps : List Element) : Prop :=
  ∀ u ∈ g.tokens.list, ∃ e, fetch deps u.name = .ok e ∧ Unf g [] u e

section
variable {g : PathEnv} (hg : TokensOk g) (hclosed : GClosed g) {chans : List Path} {cs : List GToken}
  (hchans : ∀ ch ∈ chans, ∃ t ∈ cs, Unf g [] t ch.element ∧ Resolves g ch.deps)
include hg hclosed hchans

mutual
theorem inElement_word : ∀ {deps : List Element} {e : Element} {w : Str}, InElement chans deps e w → Resolves g deps →
    ∀ {stack : List Str} {t : GToken}, StackOk g stack → Unf g stack t e → GWord g.tokens.list cs (.tok t) w
  | _, _, _, .mk hl h, hr, _, _, hs, hu => by
    cases hu with
    | mk h1 h2 h3 h4 h5 =>
      obtain ⟨l, hl', _, hx⟩ := (unfLines_get h3).2 _ hl
      exact .tok hl' (inLine_word h hr hs hx)
theorem inLine_word : ∀ {deps : List Element} {x : Line} {w : Str}, InLine chans deps x w → Resolves g deps →
    ∀ {stack : List Str} {parent : Str} {n : Nat} {l : GLine}, StackOk g stack → UnfLine g stack parent n l x →
    GWord g.tokens.list cs (.line l) w
  | _, _, _, .nil, _, _, _, _, _, _, hu => by cases hu; exact .nil
  | _, _, _, .switch h, hr, _, _, _, _, hs, hu => by
    cases hu with
    | switch hu => exact .switch (inLine_word h hr hs hu)
  | _, _, _, .cons h1 h2 h3, hr, _, _, _, _, hs, hu => by
    cases hu with
    | elem hu1 hu2 => exact .cons (inChannels_word h1) (inContainer_word h2 hr hs hu1) (inLine_word h3 hr hs hu2)
theorem inChannels_word : ∀ {w : Str}, InChannels chans w → GWord g.tokens.list cs .gap w
  | _, .nil => .gapNil
  | _, .cons hm h1 h2 => by
    obtain ⟨t, ht, hu, hr⟩ := hchans _ hm
    exact .gapCons ht (inElement_word h1 hr (by simp [StackOk]) hu) (inChannels_word h2)
theorem inContainer_word : ∀ {deps : List Element} {c : PContainer} {w : Str}, InContainer chans deps c w → Resolves g deps →
    ∀ {stack : List Str} {parent : Str} {n : Nat} {e : GElement}, StackOk g stack → UnfC g stack parent n e c →
    GWord g.tokens.list cs (.elem e) w
  | _, _, _, .token h1 h2, hr, _, _, _, _, hs, hu => by
    cases hu with
    | replaced _ _ _ h => rw [hclosed.1] at h; simp at h
    | missing _ _ _ _ _ h => rw [hclosed.2] at h; simp at h
    | declared a m b r f u =>
      obtain ⟨k1, k2⟩ := (hg.find _ _).mp f
      refine .ref a k1 k2 (fun w hw => inElement_word (h1 w hw) hr ?_ u) h2
      intro n hn
      rcases List.mem_cons.mp hn with rfl | hn
      · exact ⟨_, k1, rfl⟩
      · exact hs n hn
  | _, _, _, .rule h1 h2, _, _, _, _, _, _, hu => by
    cases hu with
    | rule a => exact .rule a h1 h2
  | _, _, _, .recursive hf h1 h2, hr, _, _, _, _, hs, hu => by
    cases hu with
    | recur a m _ _ _ =>
      obtain ⟨u, k1, k2⟩ := hs _ m
      obtain ⟨e, k3, k4⟩ := hr u k1
      rw [k2, hf] at k3
      simp at k3
      subst k3
      exact .ref a k1 k2 (fun w hw => inElement_word (h1 w hw) hr (by simp [StackOk]) k4) h2
  | _, _, _, .lines _ _, _, _, _, _, _, _, hu => by cases hu
end

end

/-- What a word of a category of the grammar is for the compiled elements. -/
def WordIn (g : PathEnv) (chans : List Path) : GCat → Str → Prop
  | .tok t, w => ∀ stack e deps, StackOk g stack → Resolves g deps → Unf g stack t e → InElement chans deps e w
  | .line l, w => ∀ stack parent n x deps, StackOk g stack → Resolves g deps → UnfLine g stack parent n l x →
      InLine chans deps x w
  | .elem e, w => ∀ stack parent n c deps, StackOk g stack → Resolves g deps → UnfC g stack parent n e c →
      InContainer chans deps c w
  | .gap, w => InChannels chans w

theorem word_in {g : PathEnv} (hg : TokensOk g) (hclosed : GClosed g) {chans : List Path} {cs : List GToken}
    (hchans : ∀ t ∈ cs, ∃ ch ∈ chans, Unf g [] t ch.element ∧ Resolves g ch.deps) {c : GCat} {w : Str}
    (h : GWord g.tokens.list cs c w) : WordIn g chans c w := by
  induction h with
  | tok hl _ ih =>
    intro stack e deps hs hr hu
    cases hu with
    | mk h1 h2 h3 h4 h5 =>
      obtain ⟨x, hx, hux⟩ := (unfLines_get h3).1 _ hl
      exact .mk hx (ih _ _ _ _ _ hs hr hux)
  | nil =>
    intro stack parent n x deps hs hr hu
    cases hu; exact .nil
  | switch _ ih =>
    intro stack parent n x deps hs hr hu
    cases hu with
    | switch hu => exact .switch (ih _ _ _ _ _ hs hr hu)
  | cons _ _ _ ih1 ih2 ih3 =>
    intro stack parent n x deps hs hr hu
    cases hu with
    | elem hu1 hu2 => exact .cons ih1 (ih2 _ _ _ _ _ hs hr hu1) (ih3 _ _ _ _ _ hs hr hu2)
  | gapNil => exact .nil
  | gapCons hm _ _ ih1 ih2 =>
    obtain ⟨ch, hch, hu, hr⟩ := hchans _ hm
    exact .cons hch (ih1 _ _ _ (by simp [StackOk]) hr hu) ih2
  | ref hc ht hn _ hcard ih =>
    intro stack parent n c deps hs hr hu
    subst hn
    cases hu with
    | recur a m _ _ _ =>
      rw [hc] at a; simp at a; obtain ⟨rfl, rfl⟩ := a
      obtain ⟨e, k3, k4⟩ := hr _ ht
      exact .recursive k3 (fun w hw => ih w hw _ _ _ (by simp [StackOk]) hr k4) hcard
    | replaced _ _ _ h => rw [hclosed.1] at h; simp at h
    | missing _ _ _ _ _ h => rw [hclosed.2] at h; simp at h
    | declared a m b r f u =>
      rw [hc] at a; simp at a; obtain ⟨rfl, rfl⟩ := a
      rw [(hg.find _ _).mpr ⟨ht, rfl⟩] at f
      simp at f; subst f
      refine .token (fun w hw => ih w hw _ _ _ ?_ hr u) hcard
      intro n hn
      rcases List.mem_cons.mp hn with rfl | hn
      · exact ⟨_, ht, rfl⟩
      · exact hs n hn
    | rule a => rw [hc] at a; simp at a
  | rule hc h1 hcard =>
    intro stack parent n c deps hs hr hu
    cases hu with
    | recur a m _ _ _ => rw [hc] at a; simp at a
    | replaced a _ _ h => rw [hc] at a; simp at a
    | missing a _ _ _ _ h => rw [hc] at a; simp at a
    | declared a m b r f u => rw [hc] at a; simp at a
    | rule a => rw [hc] at a; simp at a; subst a; exact .rule h1 hcard

/-! ## The dependencies -/

section steps
variable {g : PathEnv} (hclosed : GClosed g) {rec : GToken → Out (Element × List Element)} {stack : List Str} {parent : Str}
include hclosed

theorem elementToContainer_ext (hrec : ∀ u e x, rec u = .ok (e, x) → x = []) {n : Nat} {e : GElement} {c : PContainer}
    {ext : List Element} (h : elementToContainer g rec stack parent n e = .ok (c, ext)) : ext = [] := by
  unfold elementToContainer at h
  cases hc : e.content with
  | rule r => simp [hc] at h; exact h.2
  | token name specs =>
    simp only [hc] at h
    by_cases hm : name ∈ stack
    · simp only [hm, if_true] at h
      by_cases hp : parent = name ∧ n ≤ 1
      · simp [hp] at h
      · simp only [hp, if_false, Out.bind_eq_ok] at h
        obtain ⟨sp, h1, h2⟩ := h
        by_cases hn : name = [] <;> simp [hn] at h2
        exact h2.2
    · simp only [hm, if_false, Out.bind_eq_ok] at h
      obtain ⟨⟨el, x⟩, h1, sp, h2, h3⟩ := h
      simp at h3
      obtain ⟨_, rfl⟩ := h3
      unfold tokenReferenceToTokenPath at h1
      simp only [hclosed.1, hclosed.2] at h1
      cases hf : g.tokens.find name <;> simp only [hf] at h1
      · exact hrec _ _ _ h1
      · simp at h1
      · simp at h1

theorem processInstructions_ext (hrec : ∀ u e x, rec u = .ok (e, x) → x = []) {n : Nat} {l : GLine} : ∀ {x : Line}
    {ext : List Element}, processInstructions g rec stack parent n l = .ok (x, ext) → ext = [] := by
  induction l with
  | nil => intro x ext h; simp [processInstructions] at h; exact h.2
  | cons i l ih =>
    intro x ext h
    cases i with
    | channelSwitch =>
      simp only [processInstructions, Out.bind_eq_ok] at h
      obtain ⟨⟨a, b⟩, h1, h2⟩ := h
      simp at h2
      exact h2.2 ▸ ih h1
    | element e =>
      simp only [processInstructions, Out.bind_eq_ok] at h
      obtain ⟨⟨a, b⟩, h1, ⟨c, d⟩, h2, h3⟩ := h
      simp at h3
      rw [← h3.2, ih h2, elementToContainer_ext hclosed hrec h1]; rfl

theorem processLines_ext (hrec : ∀ u e x, rec u = .ok (e, x) → x = []) {ls : List GLine} : ∀ {x : List Line}
    {ext : List Element}, processLines g rec stack parent ls = .ok (x, ext) → ext = [] := by
  induction ls with
  | nil => intro x ext h; simp [processLines] at h; exact h.2
  | cons l ls ih =>
    intro x ext h
    simp only [processLines, processLine, Out.bind_eq_ok] at h
    obtain ⟨⟨x, b⟩, ⟨⟨x', b'⟩, h1, h2⟩, ⟨xs', b''⟩, h3, h4⟩ := h
    simp at h4
    simp only at h2
    by_cases hx : x' = [] <;> simp [hx] at h2
    obtain ⟨rfl, rfl⟩ := h2
    rw [← h4.2, ih h3, processInstructions_ext hclosed hrec h1]; rfl

end steps

theorem toElement_ext {g : PathEnv} (hclosed : GClosed g) : ∀ (d : Nat) {stack : List Str} {t : GToken} {e : Element}
    {ext : List Element}, toElement g d stack t = .ok (e, ext) → ext = [] := by
  intro d
  induction d with
  | zero => intro stack t e ext h; simp [toElement] at h
  | succ d ih =>
    intro stack t e ext h
    simp only [toElement, Out.bind_eq_ok] at h
    obtain ⟨⟨must, x⟩, h1, h2⟩ := h
    have hrec : ∀ (u : GToken) e' x, toElement g d (u.name :: stack) u = .ok (e', x) → x = [] := fun u e' x h => ih h
    have hm := processLines_ext hclosed hrec h1
    cases hn : t.not with
    | none =>
      simp only [hn, Out.bind_eq_ok] at h2
      obtain ⟨e', h3, h4⟩ := h2
      simp at h4
      exact h4.2 ▸ hm
    | some ls =>
      simp only [hn, Out.bind_eq_ok] at h2
      obtain ⟨⟨not, x'⟩, h3, e', h4, h5⟩ := h2
      simp at h5
      rw [← h5.2, hm, processLines_ext hclosed hrec h3]; rfl

theorem unf_name {g : PathEnv} {stack : List Str} {t : GToken} {e : Element} (h : Unf g stack t e) : e.name = t.name := by
  cases h; rfl

theorem buildDependencies_unf {g : PathEnv} (hclosed : GClosed g) {d : Nat} : ∀ {ts : List GToken} {l : List Element},
    buildDependencies g d ts = .ok l → List.Forall₂ (Unf g []) ts l := by
  intro ts
  induction ts with
  | nil => intro l h; simp [buildDependencies] at h; subst h; exact .nil
  | cons t ts ih =>
    intro l h
    simp only [buildDependencies, Out.bind_eq_ok] at h
    obtain ⟨⟨e, ext⟩, h1, l', h2, h3⟩ := h
    simp at h3
    have := toElement_ext hclosed d h1
    subst this
    rw [← h3]
    exact .cons (toElement_unf d h1) (ih h2)

theorem forall2_mem {α β : Type} {R : α → β → Prop} {l : List α} {l' : List β} (h : List.Forall₂ R l l') :
    (∀ a ∈ l, ∃ b ∈ l', R a b) ∧ (∀ b ∈ l', ∃ a ∈ l, R a b) := by
  induction h with
  | nil => simp
  | cons h _ ih =>
    refine ⟨?_, ?_⟩
    · intro a ha
      rcases List.mem_cons.mp ha with rfl | ha
      · exact ⟨_, by simp, h⟩
      · obtain ⟨b, hb, h'⟩ := ih.1 a ha; exact ⟨b, by simp [hb], h'⟩
    · intro a ha
      rcases List.mem_cons.mp ha with rfl | ha
      · exact ⟨_, by simp, h⟩
      · obtain ⟨b, hb, h'⟩ := ih.2 a ha; exact ⟨b, by simp [hb], h'⟩

/-- The path of a token in a closed grammar: its element, and all the elements of the grammar. -/
theorem toPath_unf {g : PathEnv} (hg : TokensOk g) (hclosed : GClosed g) {d : Nat} {t : GToken} {p : Path}
    (h : toPath g d t = .ok p) (ht : ∀ u ∈ g.tokens.list, u.name = t.name → u = t) :
    Unf g [] t p.element ∧ Resolves g p.deps ∧ ∀ e ∈ p.deps, ∃ u, (u ∈ g.tokens.list ∨ u = t) ∧ Unf g [] u e := by
  simp only [toPath, Out.bind_eq_ok] at h
  obtain ⟨deps, h1, ⟨e, ext⟩, h2, h3⟩ := h
  have := toElement_ext hclosed d h2
  subst this
  simp at h3
  subst h3
  have he := toElement_unf d h2
  have hd := buildDependencies_unf hclosed h1
  have hmem := forall2_mem hd
  refine ⟨he, ?_, ?_⟩
  · intro u hu
    obtain ⟨eu, heu, hue⟩ := hmem.1 u hu
    rcases (C38_last_wins [] [] [] (deps ++ [e]) u.name).2.2.2 with ⟨a, k1, pre, post, k2, k3, k4⟩ | ⟨k1, k2⟩
    · refine ⟨a, k1, ?_⟩
      have ha : a ∈ deps ++ [e] := by rw [k2]; simp
      rcases List.mem_append.mp ha with ha | ha
      · obtain ⟨u', hu', hua⟩ := hmem.2 a ha
        have hn : u'.name = u.name := by rw [← unf_name hua, k3]
        have e1 := (hg.find u.name u').mpr ⟨hu', hn⟩
        have e2 := (hg.find u.name u).mpr ⟨hu, rfl⟩
        rw [e1] at e2
        simp at e2
        exact e2 ▸ hua
      · simp at ha
        subst ha
        have hn : u.name = t.name := by rw [← unf_name he, k3]
        exact ht u hu hn ▸ he
    · exact absurd (unf_name hue) (k2 eu (by simp [heu]))
  · intro x hx
    rcases List.mem_append.mp hx with hx | hx
    · obtain ⟨u, hu, h⟩ := hmem.2 x hx
      exact ⟨u, .inl hu, h⟩
    · simp at hx; subst hx
      exact ⟨t, .inr rfl, he⟩

theorem channelPaths_each {g : PathEnv} {d : Nat} : ∀ {ts : List GToken} {l : List Path},
    channelPaths g d ts = .ok l → List.Forall₂ (fun t p => toPath g d t = .ok p) ts l := by
  intro ts
  induction ts with
  | nil => intro l h; simp [channelPaths] at h; subst h; exact .nil
  | cons t ts ih =>
    intro l h
    simp only [channelPaths, Out.bind_eq_ok] at h
    obtain ⟨p, h1, l', h2, h3⟩ := h
    simp at h3
    subst h3
    exact .cons h1 (ih h2)

end Verif.Lexer
