import Verif.Lemmas.Lexer

/-! The tokens of the matcher are parse trees. -/

namespace Verif.Lexer
open Verif.Patterns Verif.Cardinality

theorem replaceFirst_prefix {s d : Str} (h : d <+: s) : replaceFirst s d = s.drop d.length := by
  have : strIndex d s = some 0 := by
    cases s with
    | nil => have : d = [] := by simpa using h
             simp [strIndex, this]
    | cons c cs => simp [strIndex, h]
  simp [replaceFirst, this]

theorem isPrefixOf_iff {d s : Str} : d.isPrefixOf s = true ↔ d <+: s := List.isPrefixOf_iff_prefix

theorem BlocksConform_switch {chans deps is s l} :
    BlocksConform chans deps (.channelSwitch :: is) s l ↔ BlocksConform chans deps is s l := by
  cases l <;> simp [BlocksConform, nextContainer]

theorem blocks_prefix {chans deps} (l : List BlockMatch) : ∀ {line s}, BlocksConform chans deps line s l →
    blocksDiscoveries l <+: s := by
  induction l with
  | nil => intro line s _; simp [blocksDiscoveries]
  | cons b bs ih =>
    intro line s h
    obtain ⟨c, rest, _, _, hp, hr⟩ := h
    obtain ⟨t, rfl⟩ := hp
    rw [List.drop_left] at hr
    simp only [blocksDiscoveries]
    exact List.prefix_append_right_inj _ |>.mpr (ih hr)

theorem line_prefix {chans deps lines s} {l : LineMatch} (h : l.Conforms chans deps lines s) : l.discoveries <+: s := by
  cases l with
  | mk i l =>
    obtain ⟨line, _, _, h⟩ := h
    simp only [LineMatch.discoveries]
    split
    · exact blocks_prefix l (h ‹_›).2
    · exact List.nil_prefix

theorem token_prefix {chans deps e s} {t : Token} (h : t.Conforms chans deps e s) : t.discoveries <+: s := by
  match t with
  | .mk n none => simp [Token.discoveries]
  | .mk n (some (.mk m none)) => simpa [Token.discoveries, TokenContent.discoveries] using line_prefix h.2
  | .mk n (some (.mk m (some x))) =>
    simp only [Token.discoveries, TokenContent.discoveries]
    split
    · exact List.nil_prefix
    · exact line_prefix h.2.1

theorem tokens_prefix {chans deps e} (l : List Token) : ∀ {s}, TokensConform chans deps e s l →
    tokensDiscoveries l <+: s := by
  induction l with
  | nil => intro s _; simp [tokensDiscoveries]
  | cons b bs ih =>
    intro s h
    obtain ⟨_, _, hp, hr⟩ := h
    obtain ⟨t, rfl⟩ := hp
    rw [List.drop_left] at hr
    simp only [tokensDiscoveries]
    exact List.prefix_append_right_inj _ |>.mpr (ih hr)

/-- The text of a valid token is the text of its must line. -/
theorem valid_discoveries {t : Token} (h : t.isValid = true) : ∃ c, t.content = some c ∧ t.discoveries = c.must.discoveries := by
  match t with
  | .mk n none => simp [Token.isValid] at h
  | .mk n (some (.mk m none)) => exact ⟨_, rfl, by simp [Token.discoveries, TokenContent.discoveries, TokenContent.must]⟩
  | .mk n (some (.mk m (some x))) =>
    refine ⟨_, rfl, ?_⟩
    simp only [Token.isValid, TokenContent.isValid, Bool.not_eq_true'] at h
    simp [Token.discoveries, TokenContent.discoveries, TokenContent.must, h]

/-! ## Rules -/

theorem toResult_text {r : Rule} {s : Str} {res : RuleResult} {l : List Result} (hw : RuleWF r)
    (h : toResult r s = .ok res) (hl : res.results = some l) : RuleText r res.content := by
  unfold RuleWF at hw
  unfold RuleText
  cases hc : r.content with
  | constant c =>
    by_cases he : c = []
    · subst he
      rw [C37_empty_rule r hc] at h
      simp at h; subst h; simp at hl
    · rcases C37_constant_rule r c hc he s with ⟨_, h'⟩ | ⟨_, _, x, _, _, h', hx, _⟩
      · rw [h'] at h; simp at h; subst h; simp at hl
      · rw [h'] at h; simp at h; subst h
        simp [RuleResult.content, hx, he]
  | pattern ps card =>
    rw [hc] at hw
    obtain ⟨rr, rest, h', _, _, hr, _⟩ := C37_pattern_rule r ps card hc hw s
    rw [h'] at h; simp at h; subst h
    obtain ⟨hn, hr⟩ := hr l hl
    refine ⟨l.map Result.content, by simpa using hn, by simp [RuleResult.content, hl], ?_⟩
    intro x hx
    obtain ⟨y, hy, rfl⟩ := List.mem_map.mp hx
    obtain ⟨hi, _, p, hp, s', hs', hf⟩ := hr y hy
    refine ⟨p, hp, ?_⟩
    obtain ⟨i, _, _, _, h1, h2, _⟩ := (C34_pattern_result p (hw p hp) s').1 y hf
    exact ⟨_, _, h2, by simpa using h1, rfl⟩

theorem PatternsFind.append {ps : List Pattern} {us vs : List Str} : ∀ {s : Str}, PatternsFind ps s us → PatternsFind ps (s.drop us.flatten.length) vs →
    PatternsFind ps s (us ++ vs) := by
  induction us with
  | nil => intro s _ h; simpa using h
  | cons u us ih =>
    intro s h h'
    refine ⟨h.1, ih h.2 ?_⟩
    simpa [List.drop_drop] using h'

theorem RuleFinds.append {r : Rule} {us vs : List Str} : ∀ {s : Str}, RuleFinds r s us → RuleFinds r (s.drop us.flatten.length) vs →
    RuleFinds r s (us ++ vs) := by
  induction us with
  | nil => intro s _ h; simpa using h
  | cons u us ih =>
    intro s h h'
    refine ⟨h.1, ih h.2 ?_⟩
    simpa [List.drop_drop] using h'

theorem PatternsFind.texts {ps : List Pattern} {us : List Str} : ∀ {s : Str}, PatternsFind ps s us → ∀ x ∈ us, ∃ p ∈ ps, PatternText p x := by
  induction us with
  | nil => simp
  | cons u us ih =>
    intro s h x hx
    rcases List.mem_cons.mp hx with rfl | hx
    · obtain ⟨p, hp, ts, h1, h2, h3⟩ := h.1
      exact ⟨p, hp, s, ts, h1, h2, h3⟩
    · exact ih h.2 x hx

theorem RuleFindsOne.text {r : Rule} {s u : Str} (h : RuleFindsOne r s u) : RuleText r u := by
  unfold RuleFindsOne at h
  unfold RuleText
  cases hc : r.content with
  | constant c => rw [hc] at h; exact h
  | pattern ps card =>
    rw [hc] at h
    obtain ⟨us, h1, h2, h3⟩ := h
    exact ⟨us, h1, h2, h3.texts⟩

theorem RuleFinds.texts {r : Rule} {ws : List Str} : ∀ {s : Str}, RuleFinds r s ws → ∀ w ∈ ws, RuleText r w := by
  induction ws with
  | nil => simp
  | cons u us ih =>
    intro s h x hx
    rcases List.mem_cons.mp hx with rfl | hx
    · exact h.1.text
    · exact ih h.2 x hx

theorem RuleFinds.results {r : Rule} {s : Str} {l : List RuleResult} (h : RuleFinds r s (l.map RuleResult.content)) : ∀ x ∈ l, RuleText r x.content :=
  fun x hx => h.texts _ (List.mem_map_of_mem hx)

theorem resultLoop_finds (ps : List Pattern) (hp : ∀ p ∈ ps, WellFormed p) (pMax : Option UInt64) (fuel : Nat) : ∀ (acc : List Result) (rem : Str) (l : List Result),
    resultLoop ps pMax fuel acc rem = .ok l → ∃ new, l = acc ++ new ∧ PatternsFind ps rem (new.map Result.content) := by
  induction fuel with
  | zero => intro acc rem l h; simp [resultLoop] at h; exact ⟨[], by simp [h], trivial⟩
  | succ fuel ih =>
    intro acc rem l h
    simp only [resultLoop] at h
    by_cases hr : rem = []
    · rw [if_pos hr] at h; simp at h; exact ⟨[], by simp [h], trivial⟩
    rw [if_neg hr] at h
    by_cases hm : maxReached pMax acc.length = true
    · rw [if_pos hm] at h; simp at h; exact ⟨[], by simp [h], trivial⟩
    rw [if_neg hm] at h
    rcases fromPatterns_at_zero hp hr with ⟨r, p, hpp, h1, h2, h3⟩ | ⟨h1, h2 | ⟨r, i, h2, h3, h4⟩⟩
    · obtain ⟨k1, k2, _, k4⟩ := fromPattern_zero (hp p hpp) h3 h2
      rw [h1] at h
      simp only [h2, Out.bind_ok, gt_iff_lt, lt_irrefl, if_false] at h
      obtain ⟨new, rfl, hn⟩ := ih _ _ _ h
      refine ⟨r :: new, by simp, ⟨p, hpp, _, k4, ?_, rfl⟩, hn⟩
      intro e
      apply k1
      simp [Result.content, e]
    · rw [h2] at h; simp at h; exact ⟨[], by simp [h], trivial⟩
    · rw [h2] at h
      simp only [h3, Out.bind_ok, gt_iff_lt, h4, if_true, Out.pure_eq] at h
      simp at h; exact ⟨[], by simp [h], trivial⟩

theorem toResult_finds {r : Rule} {s : Str} {res : RuleResult} {l : List Result} (hw : RuleWF r)
    (h : toResult r s = .ok res) (hl : res.results = some l) : RuleFindsOne r s res.content := by
  have ht := toResult_text hw h hl
  unfold RuleWF at hw
  unfold RuleText at ht
  unfold RuleFindsOne
  cases hc : r.content with
  | constant c => rw [hc] at ht; exact ht
  | pattern ps card =>
    rw [hc] at hw ht
    obtain ⟨us, h1, h2, _⟩ := ht
    unfold toResult at h
    rw [hc] at h
    dsimp only at h
    obtain ⟨l', hl', h⟩ := Out.bind_eq_ok.mp h
    obtain ⟨new, rfl, hn⟩ := resultLoop_finds ps hw _ _ _ _ _ hl'
    split at h
    · simp at h; subst h; simp at hl
    · simp at h; subst h
      rename_i hne
      simp at hl; subst hl
      exact ⟨_, by simpa using hne, by simp [RuleResult.content], hn⟩

theorem reachedMax_lt {card : Card} {n : Nat} {m : UInt64} (hm : card.delimiter.2 = some m) (h : reachedMax card n = false)
    (hn : n < 2 ^ 64) : n < m.toNat := by
  simp only [reachedMax, hm, decide_eq_false_iff_not, ge_iff_le, UInt64.not_le] at h
  rw [UInt64.lt_iff_toNat_lt, UInt64.toNat_ofNat_of_lt' (by simpa [UInt64.size] using hn)] at h
  exact h

/-- What the loops over tokens and rules know about the number of results so far. -/
def Below (card : Card) (n : Nat) : Prop := ∀ m, card.delimiter.2 = some m → n = 0 ∨ n < m.toNat

theorem Below.succ {card : Card} {n : Nat} (h : Below card n) : AtMost card (n + 1) := by
  intro m hm
  have := h m hm
  omega

theorem Below.next {card : Card} {n : Nat} (h : Below card n) (hr : reachedMax card (n + 1) = false) :
    Below card (n + 1) := by
  intro m hm
  right
  have h1 := h.succ m hm
  have h2 := m.toNat_lt
  exact reachedMax_lt hm hr (by omega)

theorem AtMost.zero (card : Card) : AtMost card 0 := fun _ _ => Nat.zero_le _

theorem Below.atMost {card : Card} {n : Nat} (h : Below card n) : AtMost card n := by
  intro m hm
  have := h m hm
  omega

theorem ruleLoop_text (rule : Rule) (card : Card) (cp : Bool) (len n : Nat) : ∀ rem acc s l s',
    ruleLoop rule card cp len n rem acc s = some (.ok l, s') → Below card acc.length →
    AtMost card l.length ∧ ∃ new, l = acc ++ new ∧ (RuleWF rule → RuleFinds rule rem (new.map RuleResult.content)) := by
  induction n with
  | zero => intro rem acc s l s' h; simp [ruleLoop] at h
  | succ n ih =>
    intro rem acc s l s' h hb
    have stop : AtMost card acc.length ∧ ∃ new, acc = acc ++ new ∧ (RuleWF rule → RuleFinds rule rem (new.map RuleResult.content)) :=
      ⟨hb.atMost, [], by simp, fun _ => trivial⟩
    unfold ruleLoop at h
    cases hres : toResult rule rem with
    | panic => rw [hres] at h; simp at h
    | err => rw [hres] at h; simp at h; obtain ⟨rfl, _⟩ := h; exact stop
    | ok res =>
      rw [hres] at h
      dsimp only at h
      cases hrr : res.results with
      | none => rw [hrr] at h; simp at h; obtain ⟨rfl, _⟩ := h; exact stop
      | some k =>
        rw [hrr] at h
        cases k with
        | nil => simp at h
        | cons m ms =>
          dsimp only at h
          obtain ⟨i, s1, _, h⟩ := M.bind_ok.mp h
          obtain ⟨_, s2, _, h⟩ := M.bind_ok.mp h
          have hone : AtMost card (acc ++ [res]).length ∧ ∃ new, acc ++ [res] = acc ++ new ∧ (RuleWF rule → RuleFinds rule rem (new.map RuleResult.content)) :=
            ⟨by simpa using hb.succ, [res], rfl, fun hw => ⟨toResult_finds hw hres hrr, trivial⟩⟩
          split at h
          · simp at h; obtain ⟨rfl, _⟩ := h; exact hone
          · split at h
            · simp at h; obtain ⟨rfl, _⟩ := h; exact hone
            · split at h
              · simp at h
              · split at h
                · simp at h; obtain ⟨rfl, _⟩ := h; exact hone
                · rename_i hr
                  obtain ⟨h1, new, rfl, h2⟩ := ih _ _ _ _ _ h (by simpa using hb.next (by simpa using hr))
                  exact ⟨h1, res :: new, by simp, fun hw => ⟨toResult_finds hw hres hrr, h2 hw⟩⟩

/-! ## The loops -/

theorem lineLoop_conforms {chans deps} {f : PContainer → Str → Bool → Bool → M (Option BlockMatch)}
    (hsome : ∀ c r a b s m s', f c r a b s = some (.ok (some m), s') → m.Conforms chans deps c r)
    (hnone : ∀ c r a b s s', f c r a b s = some (.ok none, s') → MayStop c r)
    (is : List Instruction) : ∀ a b rem acc s l s', lineLoop f is a b rem acc s = some (.ok (some l), s') →
      l ≠ [] ∧ ((∃ b, l = [b] ∧ b.isValid = false) ∨
        ∃ new, l = acc ++ new ∧ blocksValid new = true ∧ BlocksConform chans deps is rem new) := by
  induction is with
  | nil =>
    intro a b rem acc s l s' h
    simp only [lineLoop, M.pure_run, Option.some.injEq, Prod.mk.injEq, Out.ok.injEq] at h
    obtain ⟨h, _⟩ := h
    split at h
    · simp at h
    · rename_i hn
      simp at h; subst h
      exact ⟨by simpa using hn, .inr ⟨[], by simp, by simp [blocksValid], by simp [BlocksConform, nextContainer]⟩⟩
  | cons i is ih =>
    intro a b rem acc s l s' h
    cases i with
    | channelSwitch =>
      obtain ⟨h1, h2⟩ := ih _ _ _ _ _ _ _ h
      refine ⟨h1, ?_⟩
      rcases h2 with h2 | ⟨new, h2, h3, h4⟩
      · exact .inl h2
      · exact .inr ⟨new, h2, h3, BlocksConform_switch.mpr h4⟩
    | container c =>
      obtain ⟨m, s1, hm, h⟩ := M.bind_ok.mp h
      cases m with
      | none =>
        simp only [M.pure_run, Option.some.injEq, Prod.mk.injEq, Out.ok.injEq] at h
        obtain ⟨h, _⟩ := h
        split at h
        · simp at h
        · rename_i hn
          simp at h; subst h
          refine ⟨by simpa using hn, .inr ⟨[], by simp, by simp [blocksValid], ?_⟩⟩
          simp only [BlocksConform, nextContainer, Option.some.injEq, Prod.mk.injEq]
          rintro c' rest ⟨rfl, _⟩
          exact hnone _ _ _ _ _ _ hm
      | some x =>
        dsimp only at h
        split at h
        · rename_i hv
          simp at h; obtain ⟨rfl, _⟩ := h
          exact ⟨by simp, .inl ⟨x, rfl, by simpa using hv⟩⟩
        · rename_i hv
          split at h
          · simp at h
          · rename_i hp
            have hp : x.discoveries <+: rem := by simpa [isPrefixOf_iff] using hp
            rw [replaceFirst_prefix hp] at h
            obtain ⟨h1, h2⟩ := ih _ _ _ _ _ _ _ h
            refine ⟨h1, ?_⟩
            rcases h2 with h2 | ⟨new, h2, h3, h4⟩
            · exact .inl h2
            · refine .inr ⟨x :: new, by simp [h2], ?_, ?_⟩
              · simp only [blocksValid, h3, Bool.and_true]; simpa using hv
              · exact ⟨c, is, rfl, hsome _ _ _ _ _ _ _ hm, hp, h4⟩

theorem bestLoop_conforms {chans deps script} {f : Line → M (Option (List BlockMatch))} {lines : List Line}
    (hf : ∀ (i : Nat) l m s s', lines[i]? = some l → f l s = some (.ok (some m), s') →
      m ≠ [] ∧ (blocksValid m = true → BlocksConform chans deps l script m)) (ls : List Line) :
    ∀ pre b s b' s', lines = pre ++ ls → bestLoop f ls pre.length b s = some (.ok b', s') →
      (∀ lm, b.valid = some lm → lm.Conforms chans deps lines script ∧ lm.isValid = true ∧ 0 < lm.discoveries.length) →
      (∀ lm, b.invalid = some lm → lm.Conforms chans deps lines script ∧ lm.isValid = false) →
      (∀ lm, b'.valid = some lm → lm.Conforms chans deps lines script ∧ lm.isValid = true ∧ 0 < lm.discoveries.length) ∧
      (∀ lm, b'.invalid = some lm → lm.Conforms chans deps lines script ∧ lm.isValid = false) := by
  induction ls with
  | nil =>
    intro pre b s b' s' _ h hv hi
    simp [bestLoop] at h
    obtain ⟨rfl, _⟩ := h
    exact ⟨hv, hi⟩
  | cons l ls ih =>
    intro pre b s b' s' hl h hv hi
    obtain ⟨m, s1, hm, h⟩ := M.bind_ok.mp h
    have hl' : lines = (pre ++ [l]) ++ ls := by simp [hl]
    have hidx : lines[pre.length]? = some l := by simp [hl]
    cases m with
    | none => exact ih (pre ++ [l]) b s1 b' s' hl' (by simpa using h) hv hi
    | some m =>
      obtain ⟨hc1, hc2⟩ := hf _ _ _ _ _ hidx hm
      refine ih (pre ++ [l]) (b.step pre.length m) s1 b' s' hl' (by simpa using h) ?_ ?_
      · intro lm hlm
        unfold Best.step at hlm
        split at hlm
        · split at hlm <;> exact hv lm hlm
        · rename_i hval
          dsimp only at hlm
          split at hlm
          · simp at hlm; subst hlm
            have hval : blocksValid m = true := by simpa using hval
            rename_i hgt
            refine ⟨⟨l, hidx, hc1, fun h => ⟨?_, hc2 h⟩⟩, by simpa [LineMatch.isValid] using hval, by omega⟩
            simp only [LineMatch.discoveries, hval, if_true] at hgt
            intro h0
            simp [h0] at hgt
          · exact hv lm hlm
      · intro lm hlm
        unfold Best.step at hlm
        split at hlm
        · rename_i hval
          split at hlm
          · simp at hlm; subst hlm
            have hval : blocksValid m = false := by simpa using hval
            exact ⟨⟨l, hidx, hc1, by simp [hval]⟩, by simp [LineMatch.isValid, hval]⟩
          · exact hi lm hlm
        · dsimp only at hlm
          split at hlm <;> exact hi lm hlm

theorem channelLoop_conforms {P : LineMatch → Prop} {f : Path → M Token} (ps : List Path)
    (hf : ∀ p ∈ ps, ∀ t s s' c, f p s = some (.ok t, s') → t.isValid = true → t.content = some c → P c.must) :
    ∀ s l s', channelLoop f ps s = some (.ok (some l), s') → P l := by
  induction ps with
  | nil => intro s l s' h; simp [channelLoop] at h
  | cons p ps ih =>
    intro s l s' h
    obtain ⟨t, s1, ht, h⟩ := M.bind_ok.mp h
    split at h
    · exact ih (fun q hq => hf q (by simp [hq])) _ _ _ h
    · rename_i hv
      cases hc : t.content with
      | none => rw [hc] at h; simp at h
      | some c =>
        rw [hc] at h
        simp at h; obtain ⟨rfl, _⟩ := h
        exact hf p (by simp) t _ _ c ht (by simpa using hv) hc

theorem TokensConform_append {chans deps e} (l : List Token) : ∀ {s l'}, TokensConform chans deps e s (l ++ l') ↔
    TokensConform chans deps e s l ∧ TokensConform chans deps e (s.drop (tokensDiscoveries l).length) l' := by
  induction l with
  | nil => intro s l'; simp [TokensConform, tokensDiscoveries]
  | cons t ts ih =>
    intro s l'
    simp only [List.cons_append, TokensConform, tokensDiscoveries, List.length_append, ih, List.drop_drop, and_assoc]

theorem tokensDiscoveries_append (l l' : List Token) :
    tokensDiscoveries (l ++ l') = tokensDiscoveries l ++ tokensDiscoveries l' := by
  induction l with
  | nil => simp [tokensDiscoveries]
  | cons t ts ih => simp [tokensDiscoveries, ih]

theorem tokenLoop_conforms {chans deps e} {f : Str → M Token} (card : Card)
    (hf : ∀ rem s t s', f rem s = some (.ok t, s') → t.Conforms chans deps e rem) (n : Nat) :
    ∀ script acc s l s', tokenLoop f card n (script.drop (tokensDiscoveries acc).length) acc s = some (.ok l, s') →
      Below card acc.length → TokensConform chans deps e script acc →
      AtMost card l.length ∧ TokensConform chans deps e script l := by
  induction n with
  | zero => intro script acc s l s' h; simp [tokenLoop] at h
  | succ n ih =>
    intro script acc s l s' h hb ha
    obtain ⟨t, s1, ht, h⟩ := M.bind_ok.mp h
    have hc := hf _ _ _ _ ht
    split at h
    · simp at h; obtain ⟨rfl, _⟩ := h
      exact ⟨hb.atMost, ha⟩
    · rename_i hv
      have hv : t.isValid = true := by simpa using hv
      obtain ⟨c, hc1, hc2⟩ := valid_discoveries hv
      rw [hc1] at h
      have hpre := token_prefix hc
      have hnew : TokensConform chans deps e script (acc ++ [t]) := by
        rw [TokensConform_append]
        exact ⟨ha, hc, hv, hpre, trivial⟩
      have hat : AtMost card (acc ++ [t]).length := by simpa using hb.succ
      dsimp only at h
      rw [← hc2] at h
      split at h
      · simp at h; obtain ⟨rfl, _⟩ := h; exact ⟨hat, hnew⟩
      · split at h
        · simp at h; obtain ⟨rfl, _⟩ := h; exact ⟨hat, hnew⟩
        · rename_i hr
          rw [replaceFirst_prefix hpre, List.drop_drop] at h
          refine ih script (acc ++ [t]) s1 l s' ?_ (by simpa using hb.next (by simpa using hr)) hnew
          rw [tokensDiscoveries_append]
          simpa [tokensDiscoveries] using h

/-! ## The matcher -/

structure Sound (env : Env) (chans : List Path) (n : Nat) : Prop where
  elem : ∀ e deps s c st t st', elementToToken env n e deps s c st = some (.ok t, st') → t.Conforms chans deps e s
  content : ∀ e deps s c st t st', elementToTokenContent env n e deps s c st = some (.ok (some t), st') →
    t.must.Conforms chans deps e.must s ∧ ∀ x, t.not = some x → x.Conforms chans deps e.not s
  best : ∀ ls deps s c st t st', bestLineToMatches env n ls deps s c st = some (.ok (some t), st') →
    t.Conforms chans deps ls s
  line : ∀ l deps s c st t st', lineToMatches env n l deps s c st = some (.ok (some t), st') →
    t ≠ [] ∧ (blocksValid t = true → BlocksConform chans deps l s t)
  block : ∀ p deps s c x st t st', containerToBlockMatch env n p deps s c x st = some (.ok (some t), st') →
    t.Conforms chans deps p s
  blockNone : ∀ p deps s c x st st', containerToBlockMatch env n p deps s c x st = some (.ok none, st') → MayStop p s
  chan : ∀ p deps s x st t st', findChannelBlockMatch env n p deps s x st = some (.ok (some t), st') →
    t.Conforms chans deps p s
  mtch : ∀ p deps s x st t st', containerToMatch env n p deps s x st = some (.ok (some t), st') → t.Conforms chans deps p s
  mtchNone : ∀ p deps s x st st', containerToMatch env n p deps s x st = some (.ok none, st') →
    (∃ nm sp k, p = .recursive nm sp k) ∨ ∃ ls, p = .lines ls
  tok : ∀ e sp k deps s x st t st', tokenToTokenMatch env n e sp k deps s x st = some (.ok t, st') →
    ∃ l, t = .mk e.name (.mk s k l) sp ∧ AtMost k l.length ∧ TokensConform chans deps e s l

theorem fetch_name {deps : List Element} {name : Str} {e : Element} (h : fetch deps name = .ok e) : e.name = name := by
  unfold fetch at h
  split at h
  · rename_i x hx
    simp at h; subst h
    simpa using List.find?_some hx
  · simp at h

theorem wrapToken_conforms {chans deps p s t} (h : t.Conforms chans deps p s)
    (hk : p.cardinality = .ok t.result.card) : (wrapToken t).Conforms chans deps p s := by
  unfold wrapToken
  split
  · rename_i hh
    simp only [Bool.and_eq_true] at hh
    exact ⟨h, _, hk, hh.1⟩
  · exact h

theorem sound (env : Env) (chans : List Path) (hch : ∀ k, ∀ p ∈ env.channels k, p ∈ chans) (n : Nat) :
    Sound env chans n := by
  induction n with
  | zero =>
    constructor <;> intros <;> rename_i h
    · simp [elementToToken] at h
    · simp [elementToTokenContent] at h
    · simp [bestLineToMatches] at h
    · simp [lineToMatches] at h
    · simp [containerToBlockMatch] at h
    · simp [containerToBlockMatch] at h
    · simp [findChannelBlockMatch] at h
    · simp [containerToMatch] at h
    · simp [containerToMatch] at h
    · simp [tokenToTokenMatch] at h
  | succ n ih =>
    constructor
    · intro e deps s c st t st' h
      simp only [elementToToken] at h
      obtain ⟨x, s1, hx, h⟩ := M.bind_ok.mp h
      split at h
      · simp at h
      · simp at h; obtain ⟨rfl, _⟩ := h
        match x, hx with
        | none, hx => rfl
        | some (.mk m none), hx => exact ⟨rfl, (ih.content _ _ _ _ _ _ _ hx).1⟩
        | some (.mk m (some nt)), hx =>
          obtain ⟨h1, h2⟩ := ih.content _ _ _ _ _ _ _ hx
          exact ⟨rfl, h1, h2 _ rfl⟩
    · intro e deps s c st t st' h
      simp only [elementToTokenContent] at h
      obtain ⟨x, s1, hx, h⟩ := M.bind_ok.mp h
      cases x with
      | none => simp at h
      | some m =>
        have := ih.best _ _ _ _ _ _ _ hx
        dsimp only at h
        split at h
        · simp at h; obtain ⟨rfl, _⟩ := h; exact ⟨this, by simp [TokenContent.not]⟩
        · obtain ⟨y, s2, hy, h⟩ := M.bind_ok.mp h
          simp at h; obtain ⟨rfl, _⟩ := h
          refine ⟨this, ?_⟩
          intro x hx
          simp only [TokenContent.not] at hx; subst hx
          exact ih.best _ _ _ _ _ _ _ hy
    · intro ls deps s c st t st' h
      simp only [bestLineToMatches] at h
      obtain ⟨b, s1, hb, h⟩ := M.bind_ok.mp h
      simp at h; obtain ⟨h, _⟩ := h
      obtain ⟨h1, h2⟩ := bestLoop_conforms (chans := chans) (deps := deps) (script := s) (lines := ls) (by
        intro i l m st1 st2 hi hl
        exact ih.line _ _ _ _ _ _ _ hl) ls [] ⟨0, none, none⟩ _ _ _ rfl hb (by simp) (by simp)
      unfold Best.result at h
      split at h
      · rename_i l hl; simp at h; subst h; exact (h1 _ hl).1
      · exact (h2 _ h).1
    · intro l deps s c st t st' h
      simp only [lineToMatches] at h
      obtain ⟨h1, h2⟩ := lineLoop_conforms (chans := chans) (deps := deps)
        (fun c r a b s m s' h => ih.block _ _ _ _ _ _ _ _ h)
        (fun c r a b s s' h => ih.blockNone _ _ _ _ _ _ _ h) l _ _ _ _ _ _ _ h
      refine ⟨h1, ?_⟩
      intro hv
      rcases h2 with ⟨b, rfl, hb⟩ | ⟨new, rfl, _, hn⟩
      · simp [blocksValid, hb] at hv
      · exact hn
    · intro p deps s c x st t st' h
      simp only [containerToBlockMatch] at h
      split at h
      · rename_i hs
        obtain ⟨card, s1, hc, h⟩ := M.bind_ok.mp h
        simp at hc
        split at h
        · simp at h
        · rename_i hv
          obtain ⟨y, s2, hy, h⟩ := M.bind_ok.mp h
          simp at h; obtain ⟨rfl, _⟩ := h
          exact ⟨hs, card, hc.1, by simpa using hv⟩
      · rename_i hs
        obtain ⟨b, s1, hb, h⟩ := M.bind_ok.mp h
        cases b with
        | some b =>
          simp at h; obtain ⟨rfl, _⟩ := h
          split at hb
          · exact ih.chan _ _ _ _ _ _ _ hb
          · simp at hb
        | none =>
          obtain ⟨m, s2, hm, h⟩ := M.bind_ok.mp h
          cases m with
          | none => simp at h
          | some m =>
            simp at h; obtain ⟨rfl, _⟩ := h
            exact ⟨hs, ih.mtch _ _ _ _ _ _ _ hm⟩
    · intro p deps s c x st st' h
      simp only [containerToBlockMatch] at h
      split at h
      · rename_i hs
        obtain ⟨card, s1, hc, h⟩ := M.bind_ok.mp h
        simp at hc
        split at h
        · rename_i hv
          cases p <;> simp only [PContainer.cardinality, Out.ok.injEq] at hc <;> simp only [MayStop]
          · exact ⟨hs, hc.1 ▸ hv⟩
          · exact ⟨hs, hc.1 ▸ hv⟩
        · obtain ⟨y, s2, hy, h⟩ := M.bind_ok.mp h
          simp at h
      · obtain ⟨b, s1, hb, h⟩ := M.bind_ok.mp h
        cases b with
        | some b => simp at h
        | none =>
          obtain ⟨m, s2, hm, h⟩ := M.bind_ok.mp h
          cases m with
          | some m => simp at h
          | none =>
            rcases ih.mtchNone _ _ _ _ _ _ hm with ⟨_, _, _, rfl⟩ | ⟨_, rfl⟩ <;> simp [MayStop]
    · intro p deps s x st t st' h
      simp only [findChannelBlockMatch] at h
      obtain ⟨s0, s1, h0, h⟩ := M.bind_ok.mp h
      simp at h0; obtain ⟨rfl, rfl⟩ := h0
      obtain ⟨_, s2, _, h⟩ := M.bind_ok.mp h
      obtain ⟨l, s3, hl, h⟩ := M.bind_ok.mp h
      cases l with
      | none => simp at h
      | some l =>
        have hl' := channelLoop_conforms (P := fun l => ∃ ch ∈ chans, (ch.element.not = [] → l.isValid = true) ∧
            l.Conforms chans ch.deps ch.element.must s) _ (by
          intro q hq t a a' c ht hv hc
          refine ⟨q, hch _ q hq, ?_⟩
          have := ih.elem _ _ _ _ _ _ _ ht
          match t, hv, hc with
          | .mk nm (some (.mk m none)), hv, hc =>
            simp [Token.content] at hc; subst hc
            exact ⟨fun _ => hv, this.2⟩
          | .mk nm (some (.mk m (some (.mk i l)))), hv, hc =>
            simp [Token.content] at hc; subst hc
            refine ⟨fun hn => ?_, this.2.1⟩
            obtain ⟨_, _, line, hl, _⟩ := this
            simp [hn] at hl) _ _ _ hl
        obtain ⟨ch, hch1, hch2⟩ := hl'
        have hp := line_prefix hch2.2
        dsimp only at h
        split at h
        · simp at h
        · rw [replaceFirst_prefix hp] at h
          obtain ⟨b, s4, hb, h⟩ := M.bind_ok.mp h
          cases b with
          | none => simp at h
          | some b =>
            simp at h; obtain ⟨rfl, _⟩ := h
            exact ⟨⟨ch, hch1, hch2⟩, hp, ih.block _ _ _ _ _ _ _ _ hb⟩
    · intro p deps s x st t st' h
      cases p with
      | token e sp k =>
        simp only [containerToMatch] at h
        obtain ⟨y, s1, hy, h⟩ := M.bind_ok.mp h
        simp at h; obtain ⟨rfl, _⟩ := h
        obtain ⟨l, rfl, h1, h2⟩ := ih.tok _ _ _ _ _ _ _ _ _ hy
        exact wrapToken_conforms ⟨e, k, .inl rfl, rfl, rfl, rfl, h1, h2⟩ rfl
      | rule r k =>
        simp only [containerToMatch] at h
        obtain ⟨y, s1, hy, h⟩ := M.bind_ok.mp h
        simp at h; obtain ⟨rfl, _⟩ := h
        unfold ruleToRuleMatch at hy
        obtain ⟨s2, s3, _, hy⟩ := M.bind_ok.mp hy
        obtain ⟨l, s4, hl, hy⟩ := M.bind_ok.mp hy
        obtain ⟨s5, s6, _, hy⟩ := M.bind_ok.mp hy
        simp at hy; obtain ⟨rfl, _⟩ := hy
        obtain ⟨h1, new, hnew, h2⟩ := ruleLoop_text _ _ _ _ _ _ _ _ _ _ hl (by intro m _; simp)
        simp only [List.nil_append] at hnew
        subst hnew
        unfold wrapRule
        split
        · rename_i hh
          simp only [Bool.and_eq_true] at hh
          exact ⟨rfl, hh.1⟩
        · exact ⟨rfl, h1, h2⟩
      | recursive nm sp k =>
        simp only [containerToMatch] at h
        obtain ⟨s0, s1, h0, h⟩ := M.bind_ok.mp h
        split at h
        · obtain ⟨_, s2, _, h⟩ := M.bind_ok.mp h
          simp at h
        · obtain ⟨_, s2, _, h⟩ := M.bind_ok.mp h
          obtain ⟨e, s3, he, h⟩ := M.bind_ok.mp h
          obtain ⟨y, s4, hy, h⟩ := M.bind_ok.mp h
          simp at h; obtain ⟨rfl, _⟩ := h
          simp at he
          obtain ⟨l, rfl, h1, h2⟩ := ih.tok _ _ _ _ _ _ _ _ _ hy
          have hn := fetch_name he.1
          subst hn
          exact wrapToken_conforms ⟨e, k, .inr ⟨rfl, he.1⟩, rfl, rfl, rfl, h1, h2⟩ rfl
      | lines ls =>
        simp only [containerToMatch] at h
        obtain ⟨y, s1, hy, h⟩ := M.bind_ok.mp h
        cases y with
        | none => simp at h
        | some y =>
          simp at h; obtain ⟨rfl, _⟩ := h
          exact ⟨ls, rfl, ih.best _ _ _ _ _ _ _ hy⟩
    · intro p deps s x st st' h
      cases p with
      | token e sp k =>
        simp only [containerToMatch] at h
        obtain ⟨y, s1, hy, h⟩ := M.bind_ok.mp h
        simp at h
      | rule r k =>
        simp only [containerToMatch] at h
        obtain ⟨y, s1, hy, h⟩ := M.bind_ok.mp h
        simp at h
      | recursive nm sp k => exact .inl ⟨_, _, _, rfl⟩
      | lines ls => exact .inr ⟨_, rfl⟩
    · intro e sp k deps s x st t st' h
      simp only [tokenToTokenMatch] at h
      obtain ⟨l, s1, hl, h⟩ := M.bind_ok.mp h
      simp [tokenMatchNow] at h
      obtain ⟨h, _⟩ := h
      split at h
      · simp at h
      · split at h
        · simp at h
        · simp at h; subst h
          obtain ⟨h1, h2⟩ := tokenLoop_conforms (chans := chans) (deps := deps) (e := e) k
            (fun rem s t s' h => ih.elem _ _ _ _ _ _ _ h) n s [] _ _ _ (by simpa [tokensDiscoveries] using hl)
            (by intro m _; simp) (by simp [TokensConform])
          exact ⟨l, rfl, h1, h2⟩

end Verif.Lexer
