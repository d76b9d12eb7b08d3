import Mathlib.NumberTheory.LucasPrimality
import Mathlib.Tactic.NormNum.Prime
import Verif.Model.Scalar

/-! # The group order is prime

A Pratt certificate, checked by the kernel: for each prime of the certificate a primitive root and the
factorisation of the predecessor. -/

namespace Verif.Kyber

/-- Modular exponentiation, only used to check the certificate. -/
def powModAux (n : Nat) : Nat → Nat → Nat → Nat → Nat
  | 0, _, _, acc => acc
  | f + 1, g, e, acc =>
    powModAux n f (g * g % n) (e / 2) (if e % 2 = 1 then acc * g % n else acc)

theorem powModAux_eq (n f g e acc : Nat) (h : e < 2 ^ f) :
    (powModAux n f g e acc : ZMod n) = acc * (g : ZMod n) ^ e := by
  induction f generalizing g e acc with
  | zero => have : e = 0 := by simpa using h
            subst this; simp [powModAux]
  | succ f ih =>
    rw [powModAux, ih _ _ _ (by rw [pow_succ] at h; omega)]
    rcases Nat.mod_two_eq_zero_or_one e with h2 | h2
    · obtain ⟨k, rfl⟩ : ∃ k, e = 2 * k := ⟨e / 2, by omega⟩
      have : 2 * k / 2 = k := by omega
      simp [h2, this, pow_mul, pow_two]
    · obtain ⟨k, rfl⟩ : ∃ k, e = 2 * k + 1 := ⟨e / 2, by omega⟩
      have : (2 * k + 1) / 2 = k := by omega
      simp [h2, this, pow_add, pow_mul, pow_two]
      ring

/-- Check of one step of the certificate. -/
def prattStep (n g : Nat) (fs : List Nat) : Bool :=
  decide (1 < n) && decide (n < 2 ^ 256) && decide (fs.prod = n - 1) && decide (powModAux n 256 g (n - 1) 1 = 1) &&
    fs.all (fun f => decide (powModAux n 256 g ((n - 1) / f) 1 % n ≠ 1))

theorem prime_of_prattStep {n g : Nat} {fs : List Nat} (h : prattStep n g fs = true)
    (hfs : ∀ f ∈ fs, f.Prime) : n.Prime := by
  simp only [prattStep, Bool.and_eq_true, decide_eq_true_eq, List.all_eq_true] at h
  obtain ⟨⟨⟨⟨h1, h2⟩, h3⟩, h4⟩, h5⟩ := h
  have : Fact (1 < n) := ⟨h1⟩
  refine lucas_primality n (g : ZMod n) ?_ ?_
  · have := powModAux_eq n 256 g (n - 1) 1 (by omega)
    rw [h4] at this; simpa using this.symm
  · intro q hq hdvd hone
    rw [← h3] at hdvd
    obtain ⟨f, hf, hqf⟩ := (Prime.dvd_prod_iff hq.prime).1 hdvd
    have hqf' : q = f := (Nat.prime_dvd_prime_iff_eq hq (hfs f hf)).1 hqf
    subst hqf'
    have h6 := h5 q hf
    apply h6
    have h7 := powModAux_eq n 256 g ((n - 1) / q) 1 (lt_of_le_of_lt (Nat.div_le_self _ _) (by omega))
    rw [hone] at h7
    have h8 : ((powModAux n 256 g ((n - 1) / q) 1 : Nat) : ZMod n) = ((1 : Nat) : ZMod n) := by simpa using h7
    have h9 := (ZMod.natCast_eq_natCast_iff' _ _ _).1 h8
    rw [h9, Nat.mod_eq_of_lt h1]

theorem prime_34123 : Nat.Prime 34123 :=
  prime_of_prattStep (n := 34123) (g := 2) (fs := [2, 3, 11, 11, 47]) (by decide +kernel) (by
    intro f hf
    simp only [List.mem_cons, List.not_mem_nil, or_false] at hf
    rcases hf with rfl | rfl | rfl | rfl | rfl
    · norm_num
    · norm_num
    · norm_num
    · norm_num
    · norm_num
  )

theorem prime_409477 : Nat.Prime 409477 :=
  prime_of_prattStep (n := 409477) (g := 2) (fs := [2, 2, 3, 34123]) (by decide +kernel) (by
    intro f hf
    simp only [List.mem_cons, List.not_mem_nil, or_false] at hf
    rcases hf with rfl | rfl | rfl | rfl
    · norm_num
    · norm_num
    · norm_num
    · exact prime_34123
  )

theorem prime_14741173 : Nat.Prime 14741173 :=
  prime_of_prattStep (n := 14741173) (g := 2) (fs := [2, 2, 3, 3, 409477]) (by decide +kernel) (by
    intro f hf
    simp only [List.mem_cons, List.not_mem_nil, or_false] at hf
    rcases hf with rfl | rfl | rfl | rfl | rfl
    · norm_num
    · norm_num
    · norm_num
    · norm_num
    · exact prime_409477
  )

theorem prime_58964693 : Nat.Prime 58964693 :=
  prime_of_prattStep (n := 58964693) (g := 2) (fs := [2, 2, 14741173]) (by decide +kernel) (by
    intro f hf
    simp only [List.mem_cons, List.not_mem_nil, or_false] at hf
    rcases hf with rfl | rfl | rfl
    · norm_num
    · norm_num
    · exact prime_14741173
  )

theorem prime_30703 : Nat.Prime 30703 :=
  prime_of_prattStep (n := 30703) (g := 3) (fs := [2, 3, 7, 17, 43]) (by decide +kernel) (by
    intro f hf
    simp only [List.mem_cons, List.not_mem_nil, or_false] at hf
    rcases hf with rfl | rfl | rfl | rfl | rfl
    · norm_num
    · norm_num
    · norm_num
    · norm_num
    · norm_num
  )

theorem prime_41081 : Nat.Prime 41081 :=
  prime_of_prattStep (n := 41081) (g := 3) (fs := [2, 2, 2, 5, 13, 79]) (by decide +kernel) (by
    intro f hf
    simp only [List.mem_cons, List.not_mem_nil, or_false] at hf
    rcases hf with rfl | rfl | rfl | rfl | rfl | rfl
    · norm_num
    · norm_num
    · norm_num
    · norm_num
    · norm_num
    · norm_num
  )

theorem prime_82163 : Nat.Prime 82163 :=
  prime_of_prattStep (n := 82163) (g := 2) (fs := [2, 41081]) (by decide +kernel) (by
    intro f hf
    simp only [List.mem_cons, List.not_mem_nil, or_false] at hf
    rcases hf with rfl | rfl
    · norm_num
    · exact prime_41081
  )

theorem prime_22111 : Nat.Prime 22111 :=
  prime_of_prattStep (n := 22111) (g := 6) (fs := [2, 3, 5, 11, 67]) (by decide +kernel) (by
    intro f hf
    simp only [List.mem_cons, List.not_mem_nil, or_false] at hf
    rcases hf with rfl | rfl | rfl | rfl | rfl
    · norm_num
    · norm_num
    · norm_num
    · norm_num
    · norm_num
  )

theorem prime_132667 : Nat.Prime 132667 :=
  prime_of_prattStep (n := 132667) (g := 5) (fs := [2, 3, 22111]) (by decide +kernel) (by
    intro f hf
    simp only [List.mem_cons, List.not_mem_nil, or_false] at hf
    rcases hf with rfl | rfl | rfl
    · norm_num
    · norm_num
    · exact prime_22111
  )

theorem prime_17231 : Nat.Prime 17231 :=
  prime_of_prattStep (n := 17231) (g := 13) (fs := [2, 5, 1723]) (by decide +kernel) (by
    intro f hf
    simp only [List.mem_cons, List.not_mem_nil, or_false] at hf
    rcases hf with rfl | rfl | rfl
    · norm_num
    · norm_num
    · norm_num
  )

theorem prime_137849 : Nat.Prime 137849 :=
  prime_of_prattStep (n := 137849) (g := 3) (fs := [2, 2, 2, 17231]) (by decide +kernel) (by
    intro f hf
    simp only [List.mem_cons, List.not_mem_nil, or_false] at hf
    rcases hf with rfl | rfl | rfl | rfl
    · norm_num
    · norm_num
    · norm_num
    · exact prime_17231
  )

theorem prime_3044861653679985063343 : Nat.Prime 3044861653679985063343 :=
  prime_of_prattStep (n := 3044861653679985063343) (g := 5) (fs := [2, 3, 11, 30703, 82163, 132667, 137849]) (by decide +kernel) (by
    intro f hf
    simp only [List.mem_cons, List.not_mem_nil, or_false] at hf
    rcases hf with rfl | rfl | rfl | rfl | rfl | rfl | rfl
    · norm_num
    · norm_num
    · norm_num
    · exact prime_30703
    · exact prime_82163
    · exact prime_132667
    · exact prime_137849
  )

theorem prime_198211423230930754013084525763697 : Nat.Prime 198211423230930754013084525763697 :=
  prime_of_prattStep (n := 198211423230930754013084525763697) (g := 5) (fs := [2, 2, 2, 2, 3, 23, 58964693, 3044861653679985063343]) (by decide +kernel) (by
    intro f hf
    simp only [List.mem_cons, List.not_mem_nil, or_false] at hf
    rcases hf with rfl | rfl | rfl | rfl | rfl | rfl | rfl | rfl
    · norm_num
    · norm_num
    · norm_num
    · norm_num
    · norm_num
    · norm_num
    · exact prime_58964693
    · exact prime_3044861653679985063343
  )

theorem prime_292386187 : Nat.Prime 292386187 :=
  prime_of_prattStep (n := 292386187) (g := 2) (fs := [2, 3, 3, 3, 3, 307, 5879]) (by decide +kernel) (by
    intro f hf
    simp only [List.mem_cons, List.not_mem_nil, or_false] at hf
    rcases hf with rfl | rfl | rfl | rfl | rfl | rfl | rfl
    · norm_num
    · norm_num
    · norm_num
    · norm_num
    · norm_num
    · norm_num
    · norm_num
  )

theorem prime_213441916511 : Nat.Prime 213441916511 :=
  prime_of_prattStep (n := 213441916511) (g := 13) (fs := [2, 5, 73, 292386187]) (by decide +kernel) (by
    intro f hf
    simp only [List.mem_cons, List.not_mem_nil, or_false] at hf
    rcases hf with rfl | rfl | rfl | rfl
    · norm_num
    · norm_num
    · norm_num
    · exact prime_292386187
  )

theorem prime_531581 : Nat.Prime 531581 :=
  prime_of_prattStep (n := 531581) (g := 2) (fs := [2, 2, 5, 7, 3797]) (by decide +kernel) (by
    intro f hf
    simp only [List.mem_cons, List.not_mem_nil, or_false] at hf
    rcases hf with rfl | rfl | rfl | rfl | rfl
    · norm_num
    · norm_num
    · norm_num
    · norm_num
    · norm_num
  )

theorem prime_1224481 : Nat.Prime 1224481 :=
  prime_of_prattStep (n := 1224481) (g := 13) (fs := [2, 2, 2, 2, 2, 3, 5, 2551]) (by decide +kernel) (by
    intro f hf
    simp only [List.mem_cons, List.not_mem_nil, or_false] at hf
    rcases hf with rfl | rfl | rfl | rfl | rfl | rfl | rfl | rfl
    · norm_num
    · norm_num
    · norm_num
    · norm_num
    · norm_num
    · norm_num
    · norm_num
    · norm_num
  )

theorem prime_1257559732178653 : Nat.Prime 1257559732178653 :=
  prime_of_prattStep (n := 1257559732178653) (g := 2) (fs := [2, 2, 3, 7, 23, 531581, 1224481]) (by decide +kernel) (by
    intro f hf
    simp only [List.mem_cons, List.not_mem_nil, or_false] at hf
    rcases hf with rfl | rfl | rfl | rfl | rfl | rfl | rfl
    · norm_num
    · norm_num
    · norm_num
    · norm_num
    · norm_num
    · exact prime_531581
    · exact prime_1224481
  )

theorem prime_4434155615661930479 : Nat.Prime 4434155615661930479 :=
  prime_of_prattStep (n := 4434155615661930479) (g := 17) (fs := [2, 41, 43, 1257559732178653]) (by decide +kernel) (by
    intro f hf
    simp only [List.mem_cons, List.not_mem_nil, or_false] at hf
    rcases hf with rfl | rfl | rfl | rfl
    · norm_num
    · norm_num
    · norm_num
    · exact prime_1257559732178653
  )

theorem prime_172054593956031949258510691 : Nat.Prime 172054593956031949258510691 :=
  prime_of_prattStep (n := 172054593956031949258510691) (g := 2) (fs := [2, 5, 1361, 2851, 4434155615661930479]) (by decide +kernel) (by
    intro f hf
    simp only [List.mem_cons, List.not_mem_nil, or_false] at hf
    rcases hf with rfl | rfl | rfl | rfl | rfl
    · norm_num
    · norm_num
    · norm_num
    · norm_num
    · exact prime_4434155615661930479
  )

theorem prime_19757330305831588566944191468367130476339 : Nat.Prime 19757330305831588566944191468367130476339 :=
  prime_of_prattStep (n := 19757330305831588566944191468367130476339) (g := 2) (fs := [2, 269, 213441916511, 172054593956031949258510691]) (by decide +kernel) (by
    intro f hf
    simp only [List.mem_cons, List.not_mem_nil, or_false] at hf
    rcases hf with rfl | rfl | rfl | rfl
    · norm_num
    · norm_num
    · exact prime_213441916511
    · exact prime_172054593956031949258510691
  )

theorem prime_276602624281642239937218680557139826668747 : Nat.Prime 276602624281642239937218680557139826668747 :=
  prime_of_prattStep (n := 276602624281642239937218680557139826668747) (g := 2) (fs := [2, 7, 19757330305831588566944191468367130476339]) (by decide +kernel) (by
    intro f hf
    simp only [List.mem_cons, List.not_mem_nil, or_false] at hf
    rcases hf with rfl | rfl | rfl
    · norm_num
    · norm_num
    · exact prime_19757330305831588566944191468367130476339
  )

theorem prime_primeOrder : primeOrder.Prime :=
  prime_of_prattStep (n := primeOrder) (g := 2) (fs := [2, 2, 3, 11, 198211423230930754013084525763697, 276602624281642239937218680557139826668747]) (by decide +kernel) (by
    intro f hf
    simp only [List.mem_cons, List.not_mem_nil, or_false] at hf
    rcases hf with rfl | rfl | rfl | rfl | rfl | rfl
    · norm_num
    · norm_num
    · norm_num
    · norm_num
    · exact prime_198211423230930754013084525763697
    · exact prime_276602624281642239937218680557139826668747
  )

instance : Fact primeOrder.Prime := ⟨prime_primeOrder⟩

end Verif.Kyber
