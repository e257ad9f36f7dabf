import Verif.Lemmas.NuSim

/-! `update_channel_sources` on a vector of any length. -/

set_option linter.unusedSectionVars false
set_option linter.unusedSimpArgs false
set_option linter.unusedVariables false

namespace Verif.NU
open Verif.Dim Verif.TG Verif.Stk Verif.SM
open Verif.Emu (channelFrom setInlet setInlet_getD setInlet_length isCh chanCol channelFrom_ch channelFrom_other)

variable {K : Type} [Field K] [LinearOrder K] [IsStrictOrderedRing K] {π : Type}

theorem setInlet_keeps (g : TGrid K) (d : Dims K) (l off : Nat) (x : List K) (j : Nat)
    (h : ∀ k, k < lastColumn d + 1 → chanCol g k = true → j ≠ off + k) : (setInlet g d l off x).getD j 0 = x.getD j 0 := by
  by_cases hj : j < x.length
  · rw [setInlet_getD g d l off x j hj, if_neg]
    rintro ⟨a, b, c⟩
    exact h (j - off) (by omega) c (by omega)
  · rw [List.getD_eq_getElem?_getD, List.getD_eq_getElem?_getD, List.getElem?_eq_none (by rw [setInlet_length]; omega),
      List.getElem?_eq_none (by omega)]

theorem channelFrom_at (g : TGrid K) (d : Dims K) (hA : lastColumn d + 1 ≤ Emu.area d) : ∀ (n l off : Nat) (x : List K),
    (∀ i, i < n → typeAt g (l + i) ≠ .none) →
    (∀ i k, i < n → k < lastColumn d + 1 → isCh (typeAt g (l + i)) = true → chanCol g k = true → off + i * Emu.area d + k < x.length →
      (channelFrom g d n l off x).getD (off + i * Emu.area d + k) 0 = 2 * convective g d (l + i) k * chan g (·.coolant.tIn)) ∧
    (∀ j, (∀ i k, i < n → k < lastColumn d + 1 → isCh (typeAt g (l + i)) = true → chanCol g k = true → j ≠ off + i * Emu.area d + k) →
      (channelFrom g d n l off x).getD j 0 = x.getD j 0) := by
  intro n
  induction n with
  | zero => intro l off x _; exact ⟨by omega, fun j _ => rfl⟩
  | succ n ih =>
    intro l off x hn
    have h0 := hn 0 (by omega)
    rw [Nat.add_zero] at h0
    have hn' : ∀ i, i < n → typeAt g (l + 1 + i) ≠ .none := fun i hi => by
      have := hn (i + 1) (by omega); rwa [show l + (i + 1) = l + 1 + i by omega] at this
    by_cases hc : isCh (typeAt g l) = true
    · rw [channelFrom_ch g d n l off x hc]
      obtain ⟨h1, h2⟩ := ih (l + 1) (off + Emu.area d) (setInlet g d l off x) hn'
      refine ⟨?_, ?_⟩
      · intro i k hi hk hci hkc hlen
        cases i with
        | zero =>
          simp only [Nat.zero_mul, Nat.add_zero] at hlen ⊢
          rw [h2, setInlet_getD g d l off x _ hlen, if_pos ⟨by omega, by omega, by rwa [Nat.add_sub_cancel_left]⟩, Nat.add_sub_cancel_left]
          · intro i k' hi' hk' _ _ he
            have : off + Emu.area d ≤ off + Emu.area d + i * Emu.area d + k' := by omega
            omega
        | succ i =>
          have e : off + (i + 1) * Emu.area d + k = off + Emu.area d + i * Emu.area d + k := by ring
          rw [e] at hlen ⊢
          rw [show l + (i + 1) = l + 1 + i by omega] at hci ⊢
          exact h1 i k (by omega) hk hci hkc (by rw [setInlet_length]; exact hlen)
      · intro j hj
        rw [h2, setInlet_keeps]
        · intro k hk hkc
          have := hj 0 k (by omega) hk hc hkc
          rwa [Nat.zero_mul, Nat.add_zero] at this
        · intro i k hi hk hci hkc
          have := hj (i + 1) k (by omega) hk (by rwa [show l + (i + 1) = l + 1 + i by omega]) hkc
          rwa [show off + (i + 1) * Emu.area d + k = off + Emu.area d + i * Emu.area d + k by ring] at this
    · have hc' : isCh (typeAt g l) = false := by simpa using hc
      rw [channelFrom_other g d n l off x hc' h0]
      obtain ⟨h1, h2⟩ := ih (l + 1) (off + Emu.area d) x hn'
      refine ⟨?_, ?_⟩
      · intro i k hi hk hci hkc hlen
        cases i with
        | zero => exact absurd hci hc
        | succ i =>
          have e : off + (i + 1) * Emu.area d + k = off + Emu.area d + i * Emu.area d + k := by ring
          rw [e] at hlen ⊢
          rw [show l + (i + 1) = l + 1 + i by omega] at hci ⊢
          exact h1 i k (by omega) hk hci hkc hlen
      · intro j hj
        refine h2 j fun i k hi hk hci hkc => ?_
        have := hj (i + 1) k (by omega) hk (by rwa [show l + (i + 1) = l + 1 + i by omega]) hkc
        rwa [show off + (i + 1) * Emu.area d + k = off + Emu.area d + i * Emu.area d + k by ring] at this

end Verif.NU
