import Mathlib.Order.Basic
import Mathlib.Data.List.Basic
import Mathlib.Algebra.Field.Basic
/-!
# Specification: histograms
-/
namespace LDT
namespace Hi

/-- Bin `p` of the breaks `as`: bin 0 is below the first break, bin `p` from break `p - 1` (included) to break `p` (not
included), the last one above the last break. -/
def InBin {K : Type} [LinearOrder K] (as : List K) (p : Nat) (d : K) : Prop :=
  (∀ a, p ≠ 0 → as[p - 1]? = some a → a ≤ d) ∧ (∀ a, as[p]? = some a → d < a)

instance {K : Type} [LinearOrder K] (as : List K) (p : Nat) (d : K) : Decidable (InBin as p d) :=
  if h : (p = 0 ∨ ∀ a ∈ as[p - 1]?, a ≤ d) ∧ ∀ a ∈ as[p]?, d < a then
    isTrue ⟨fun a h0 e => h.1.elim (fun h => absurd h h0) (fun h => h a e), fun a e => h.2 a e⟩
  else isFalse fun ⟨h1, h2⟩ => h ⟨(Nat.eq_zero_or_pos p).elim Or.inl fun hp => Or.inr fun a e => h1 a (Nat.pos_iff_ne_zero.1 hp) e,
    fun a e => h2 a e⟩

/-- The breaks of `n` bins of the same width from `mn` on; the last one is moved by `eps`. -/
def breaks {K : Type} [Field K] (eps mn step : K) (n : Nat) : List K :=
  (List.range n).map (fun i : Nat => mn + (i : K) * step) ++ [mn + (n : K) * step + eps]

end Hi
end LDT
