import Verif.Model.Observers
import Verif.Spec.Observers

namespace Verif.Lexer
open Verif

def PlainParts (l : List TokenMatch) : Prop := ∀ m ∈ l, ∀ u ∈ m.result.list, u.Plain
def NoEmpty (l : List TokenMatch) : Prop := ∀ m ∈ l, m.result.list ≠ []

theorem NoEmpty_append {a b : List TokenMatch} : NoEmpty (a ++ b) ↔ NoEmpty a ∧ NoEmpty b := by
  simp only [NoEmpty, List.mem_append, or_imp, forall_and]

theorem PlainParts_append {a b : List TokenMatch} : PlainParts (a ++ b) ↔ PlainParts a ∧ PlainParts b := by
  simp only [PlainParts, List.mem_append, or_imp, forall_and]

mutual
theorem Token.exact_iff : (t : Token) → t.isValid = true → t.Plain → PlainParts t.parts → (t.isExact = true ↔ NoEmpty t.parts)
  | .mk _ none, h, _, _ => by simp [Token.isValid] at h
  | .mk _ (some (.mk m (some n))), _, hp, _ => by have := hp _ rfl; simp [TokenContent.not] at this
  | .mk _ (some (.mk m none)), h, _, hq => by
    simp only [Token.isValid, TokenContent.isValid] at h
    simp only [Token.parts] at hq ⊢
    simp only [Token.isExact, TokenContent.isExact]
    exact LineMatch.exact_iff m h hq
theorem LineMatch.exact_iff : (m : LineMatch) → m.isValid = true → PlainParts m.parts → (m.isExact = true ↔ NoEmpty m.parts)
  | .mk _ l, h, hq => by
    simp only [LineMatch.isValid] at h
    simp only [LineMatch.parts] at hq ⊢
    simp only [LineMatch.isExact]
    exact blocks_exact_iff l h hq
theorem blocks_exact_iff : (l : List BlockMatch) → blocksValid l = true → PlainParts (blocksParts l) → (blocksExact l = true ↔ NoEmpty (blocksParts l))
  | [], _, _ => by simp [blocksExact, blocksParts, NoEmpty]
  | b :: bs, h, hq => by
    simp only [blocksValid, Bool.and_eq_true] at h
    simp only [blocksParts, PlainParts_append] at hq
    simp only [blocksParts, NoEmpty_append, blocksExact, Bool.and_eq_true]
    rw [BlockMatch.exact_iff b h.1 hq.1, blocks_exact_iff bs h.2 hq.2]
theorem BlockMatch.exact_iff : (b : BlockMatch) → b.isValid = true → PlainParts b.parts → (b.isExact = true ↔ NoEmpty b.parts)
  | .mk _ c, h, hq => by
    simp only [BlockMatch.isValid] at h
    simp only [BlockMatch.parts] at hq ⊢
    simp only [BlockMatch.isExact]
    exact BlockContent.exact_iff c h hq
theorem BlockContent.exact_iff : (c : BlockContent) → c.isValid = true → PlainParts c.parts → (c.isExact = true ↔ NoEmpty c.parts)
  | .container m, h, hq => by
    simp only [BlockContent.isValid] at h
    simp only [BlockContent.parts] at hq ⊢
    simp only [BlockContent.isExact]
    exact Match.exact_iff m h hq
  | .block b, h, hq => by
    simp only [BlockContent.isValid] at h
    simp only [BlockContent.parts] at hq ⊢
    simp only [BlockContent.isExact]
    exact BlockMatch.exact_iff b h hq
  | .next _, h, _ => by simp [BlockContent.isValid] at h
theorem Match.exact_iff : (m : Match) → m.isValid = true → PlainParts m.parts → (m.isExact = true ↔ NoEmpty m.parts)
  | .token (.mk n (.mk i c []) sp), _, _ => by simp [Match.isExact, TokenMatch.isExact, TokenResult.isExact, Match.parts, NoEmpty, TokenMatch.result, TokenResult.list]
  | .token (.mk n (.mk i c (t :: l)) sp), h, hq => by
    simp only [Match.isValid, TokenMatch.isValid, TokenResult.isValid, tokensValid, Bool.and_eq_true] at h
    have hall := hq _ (by simp only [Match.parts]; exact List.mem_cons_self)
    have hq' : PlainParts (tokensParts (t :: l)) := fun m hm => hq m (by simp only [Match.parts]; exact List.mem_cons_of_mem _ hm)
    simp only [tokensParts, PlainParts_append] at hq'
    have h1 := Token.exact_iff t h.2.2.1 (hall t (by simp [TokenMatch.result, TokenResult.list])) hq'.1
    have h2 := tokens_exact_iff l h.2.2.2 (fun u hu => hall u (by simp [TokenMatch.result, TokenResult.list, hu])) hq'.2
    have h3 : NoEmpty (Match.parts (.token (.mk n (.mk i c (t :: l)) sp))) ↔ NoEmpty t.parts ∧ NoEmpty (tokensParts l) := by
      simp only [Match.parts, tokensParts]
      rw [← NoEmpty_append]
      simp [NoEmpty, TokenMatch.result, TokenResult.list]
    rw [h3, ← h1, ← h2]
    simp [Match.isExact, TokenMatch.isExact, TokenResult.isExact]
  | .rule r, h, _ => by
    simp only [Match.isValid, RuleMatch.isValid, Bool.and_eq_true] at h
    simp [Match.isExact, Match.parts, NoEmpty, h.2]
  | .skipToken _, _, _ => by simp [Match.isExact, Match.parts, NoEmpty]
  | .skipRule _, _, _ => by simp [Match.isExact, Match.parts, NoEmpty]
  | .line _, _, _ => by simp [Match.isExact, Match.parts, NoEmpty]
theorem tokens_exact_iff : (l : List Token) → tokensValid l = true → (∀ u ∈ l, u.Plain) → PlainParts (tokensParts l) →
    (tokensExact l = true ↔ NoEmpty (tokensParts l))
  | [], _, _, _ => by simp [tokensExact, tokensParts, NoEmpty]
  | t :: ts, h, hp, hq => by
    simp only [tokensValid, Bool.and_eq_true] at h
    simp only [tokensParts, PlainParts_append] at hq
    simp only [tokensParts, NoEmpty_append, tokensExact, Bool.and_eq_true]
    rw [Token.exact_iff t h.1 (hp t (by simp)) hq.1, tokens_exact_iff ts h.2 (fun u hu => hp u (by simp [hu])) hq.2]
end

end Verif.Lexer
