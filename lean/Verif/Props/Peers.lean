import Verif.Model.Peers
import Verif.Lemmas.Strings

/-!
# Property C29 (`domain/peers`)
-/

namespace Verif.Peers

/-- The delimiter `d` occurs in `text` for the first time directly behind `a` and never again:
`text` is `a`, `d`, `b`, in one way only. -/
def SpecOneDelimiter (d a b : Str) : Prop := ¬ d <:+: a ++ d.dropLast ∧ ¬ d <:+: b

/-- For a delimiter of one byte, this just says that it is neither in the host nor in the port. -/
theorem SpecOneDelimiter_byte (c : UInt8) (a b : Str) : SpecOneDelimiter [c] a b ↔ c ∉ a ∧ c ∉ b := by
  simp [SpecOneDelimiter, mem_of_infix_single]

theorem finish_eq (b : PeerBuilder) (p : Peer) : finish b = .ok p ↔
    p.host ≠ [] ∧ b.host = p.host ∧ b.port = some p.port ∧ b.dc = p.dc ∧ b.ds = p.ds := by
  obtain ⟨dc, ds, h, po, s⟩ := b
  obtain ⟨ph, pp, pdc, pds⟩ := p
  unfold finish
  cases h <;> cases po <;> simp only [if_true, reduceCtorEq, if_false, Out.ok.injEq, Peer.mk.injEq,
    Option.some.injEq, false_iff, false_and, and_false, not_false_eq_true]
  · rintro ⟨h, e, _⟩; exact h e.symm
  · constructor
    · rintro ⟨rfl, rfl, rfl, rfl⟩; simp
    · rintro ⟨_, rfl, rfl, rfl, rfl⟩; simp

/-- C29: which texts are accepted, and what they mean: one delimiter with a non-empty host before it and a decimal
number (with an optional sign) behind it; the port is the number modulo 2^64. -/
theorem C29_parse_iff (b : PeerBuilder) (p : Peer) (hs : b.str ≠ []) :
    b.now = .ok p ↔ p.dc = b.dc ∧ p.ds = b.ds ∧ p.host ≠ [] ∧ ∃ text n,
      b.str = p.host ++ (b.dc :: b.ds) ++ text ∧ SpecOneDelimiter (b.dc :: b.ds) p.host text ∧
      atoi text = .ok n ∧ p.port = UInt64.ofInt n := by
  unfold PeerBuilder.now
  rw [if_pos hs]
  constructor
  · intro h
    split at h
    · rename_i host port hsp
      simp only [Out.bind_eq_ok, finish_eq] at h
      obtain ⟨n, hn, h1, h2, h3, h4, h5⟩ := h
      have h2 : host = p.host := h2
      have h3 : some (UInt64.ofInt n) = some p.port := h3
      subst h2
      obtain ⟨e, e1, e2⟩ := splitSep_pair.mp hsp
      exact ⟨h4.symm, h5.symm, h1, port, n, e, ⟨e1, e2⟩, hn, by simpa using h3.symm⟩
    · simp at h
  · rintro ⟨h1, h2, h3, text, n, e, ⟨e1, e2⟩, hn, hp⟩
    have := splitSep_pair.mpr ⟨e, e1, e2⟩
    rw [this]
    simp only [Out.bind_eq_ok, finish_eq]
    exact ⟨n, hn, h3, by simp, by simp [hp], h1.symm, h2.symm⟩

/-- C29: parsing never panics: what is not accepted is an error. -/
theorem C29_no_panic (b : PeerBuilder) : b.now ≠ .panic := by
  have hf : ∀ b : PeerBuilder, finish b ≠ .panic := by
    intro b; unfold finish; split
    · simp
    · split <;> simp
  unfold PeerBuilder.now
  split
  · split
    · rename_i p _
      unfold atoi
      simp only
      split
      · simp
      · split
        · simpa using hf _
        · simp
    · simp
  · exact hf b

/-- C29: the round trip, with the exact condition under which it works: `String` of a peer, parsed with the same
delimiter, gives the peer iff the delimiter occurs once and the port fits in an `int`. -/
theorem C29_roundtrip_iff (p : Peer) (hh : p.host ≠ []) :
    PeerBuilder.now ⟨p.dc, p.ds, [], none, p.toStr⟩ = .ok p ↔
      SpecOneDelimiter (p.dc :: p.ds) p.host (itoaNat p.port.toNat) ∧ p.port.toNat < 2 ^ 63 := by
  have hs : p.toStr ≠ [] := by simp [Peer.toStr]
  rw [C29_parse_iff _ _ hs]
  constructor
  · rintro ⟨_, _, _, text, n, e, h1, h2, h3⟩
    unfold Peer.toStr at e
    have : text = itoaNat p.port.toNat := (List.append_cancel_left e).symm
    subst this
    refine ⟨h1, ?_⟩
    by_contra hge
    rw [digit_number_big (by omega)] at h2
    simp at h2
  · rintro ⟨h1, h2⟩
    refine ⟨rfl, rfl, hh, itoaNat p.port.toNat, (p.port.toNat : Int), rfl, h1, digit_number h2, ?_⟩
    exact (ofInt_toNat p.port).symm

/-- C29 (the usual case): one-byte delimiter that is not a digit and not in the host. -/
theorem C29_roundtrip (p : Peer) (hh : p.host ≠ []) (hd : p.ds = []) (h1 : p.dc ∉ p.host)
    (h2 : p.dc.toNat < 48 ∨ 57 < p.dc.toNat) (h3 : p.port.toNat < 2 ^ 63) :
    PeerBuilder.now ⟨p.dc, p.ds, [], none, p.toStr⟩ = .ok p := by
  rw [C29_roundtrip_iff p hh, hd, SpecOneDelimiter_byte]
  refine ⟨⟨h1, ?_⟩, h3⟩
  intro hm
  have := itoaNat_digits _ _ hm
  omega

/-- C29 (violation): a negative port is accepted and becomes a huge one. -/
theorem C29_negative_port (c : UInt8) (host : Str) (n : Nat) (hh : host ≠ []) (h0 : 0 < n) (hn : n ≤ 2 ^ 63)
    (h1 : c ∉ host) (h2 : (c.toNat < 48 ∨ 57 < c.toNat) ∧ c ≠ 45) :
    ∃ p, PeerBuilder.now ⟨c, [], [], none, host ++ [c] ++ lit "-" ++ itoaNat n⟩ = .ok p ∧
      p.host = host ∧ p.port.toNat = 2 ^ 64 - n := by
  have ha : atoi (lit "-" ++ itoaNat n) = .ok (-(n : Int)) := by
    have := atoi_itoa (-(n : Int)) (by omega) (by omega)
    have h0' : (-(n : Int) < 0) := by omega
    have hl : lit "-" = [45] := by decide
    simpa [itoa, h0', h0, hl] using this
  refine ⟨⟨host, UInt64.ofInt (-(n : Int)), c, []⟩, ?_, rfl, ?_⟩
  · rw [C29_parse_iff _ _ (by simp)]
    refine ⟨rfl, rfl, hh, lit "-" ++ itoaNat n, -(n : Int), by simp, ?_, ha, rfl⟩
    rw [SpecOneDelimiter_byte]
    refine ⟨h1, ?_⟩
    have hl : lit "-" = [45] := by decide
    rw [hl]
    simp only [List.cons_append, List.nil_append, List.mem_cons, not_or]
    refine ⟨h2.2, ?_⟩
    intro hm
    have := itoaNat_digits _ _ hm
    omega
  · have e : UInt64.ofInt (-(n : Int)) = UInt64.ofNat (2 ^ 64 - n) := by
      rw [UInt64.ofInt]
      congr 1
      omega
    rw [e]; simp; omega

/-- C29: a list of peers is built exactly when it is not empty, and is kept as it is. -/
theorem C29_peers (list : Option (List Peer)) (r : List Peer) :
    peersNow list = .ok r ↔ list = some r ∧ r ≠ [] := by
  unfold peersNow
  split
  · simp
  · simp only [reduceCtorEq, Option.some.injEq, false_iff, not_and, not_not]
    exact fun h => h.symm
  · rename_i l h
    simp only [Out.ok.injEq, Option.some.injEq]
    constructor
    · rintro rfl; exact ⟨rfl, fun e => h (by rw [e])⟩
    · exact fun h => h.1

/-- The hypotheses are met by the peer `h:80`. -/
example : PeerBuilder.now ⟨58, [], [], none, (Peer.mk (lit "h") 80 58 []).toStr⟩ = .ok ⟨lit "h", 80, 58, []⟩ :=
  C29_roundtrip _ (by decide) rfl (by decide) (by decide) (by decide)

/-- A text with two delimiters is not accepted. -/
example : PeerBuilder.now ⟨58, [], [], none, lit "h:1:2"⟩ = .err := by decide +kernel

/-- With a delimiter of two bytes, `a:` with port 1 is not read back: `a:` + `::` + `1` begins with `a::`. -/
example : ¬ SpecOneDelimiter (lit "::") (lit "a:") (lit "1") := by
  intro h; exact h.1 (by decide)

end Verif.Peers
