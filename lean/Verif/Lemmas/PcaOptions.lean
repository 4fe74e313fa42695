import Verif.Props.Pca
/-!
# Lemmas: replacing columns by components
-/
namespace LDT
namespace Pc
open Mx Sd
open Arr (Val)
open Co (part)

variable {α : Type} {r c k n f s : ℕ}

theorem get_of_mem {m : Mat α} (w : m.Wf) {r c : ℕ} (hr : m.rows = r) (hc : m.cols = c) {i j : ℕ} (hi : i < r) (hj : j < c) {v : α}
    (h : m.mem[i + r * j]? = some v) : m.get (i : Int) (j : Int) = .ok v := by
  have hin : m.InR (i : Int) (j : Int) := ⟨by omega, by rw [hr]; omega, by omega, by rw [hc]; omega⟩
  rw [get_eq_get0 w hin]
  unfold Mat.get0
  rw [hr]
  refine read_eq_ok.2 ⟨by positivity, ?_⟩
  have : ((i : Int) + (r : Int) * (j : Int)).toNat = i + r * j := by
    have e : (i : Int) + (r : Int) * (j : Int) = ((i + r * j : ℕ) : Int) := by push_cast; rfl
    rw [e, Int.toNat_natCast]
  rw [this]; exact h

theorem tailView_holds {m : Mat (Val ℝ)} {M : Fin r → Fin (s + c) → ℝ} (h : Holds m M) :
    Holds (tailView m (s : Int)) (fun i (j : Fin c) => M i (Fin.natAdd s j)) := by
  have hsz := h.wf.size
  rw [h.rows, h.cols] at hsz
  have hsz' : r * (s + c) ≤ m.mem.length := by exact_mod_cast hsz
  have hsr : ((s : Int) * m.rows).toNat = s * r := by
    rw [h.rows, show (s : Int) * (r : Int) = ((s * r : ℕ) : Int) by push_cast; rfl, Int.toNat_natCast]
  have wf : (tailView m (s : Int)).Wf := by
    refine ⟨h.wf.rows_nonneg, ?_, rfl, ?_⟩
    · show 0 ≤ m.cols - (s : Int)
      rw [h.cols]; push_cast; omega
    · show m.rows * (m.cols - (s : Int)) ≤ ((m.mem.drop ((s : Int) * m.rows).toNat).length : Int)
      rw [hsr, h.rows, h.cols, List.length_drop]
      have e1 : ((s + c : ℕ) : Int) - s = c := by push_cast; ring
      have e2 : s * r + r * c ≤ m.mem.length := by rw [Nat.mul_comm s r, ← Nat.mul_add]; exact hsz'
      rw [e1, show (r : Int) * c = ((r * c : ℕ) : Int) by push_cast; rfl]
      omega
  have hr : (tailView m (s : Int)).rows = (r : Int) := h.rows
  have hc : (tailView m (s : Int)).cols = (c : Int) := by
    show m.cols - (s : Int) = c
    rw [h.cols]; push_cast; ring
  refine ⟨wf, hr, hc, fun i j => get_of_mem wf hr hc i.2 j.2 ?_⟩
  show (m.mem.drop ((s : Int) * m.rows).toNat)[(i : ℕ) + r * j]? = _
  rw [hsr, List.getElem?_drop]
  have := cell_mem h i (Fin.natAdd s j)
  rw [← this, Fin.val_natAdd]
  congr 1; ring

/-- The first `s` columns are those of `M`, the next `n` columns are those of `P`. -/
structure Replaced (s n : ℕ) (M : Fin r → Fin (s + c) → ℝ) (P : Fin r → Fin k → ℝ) (d : Mat (Val ℝ)) : Prop where
  wf : d.Wf
  rows : d.rows = r
  cols : d.cols = (s + n : ℕ)
  kept : ∀ (i : Fin r) (j : Fin (s + c)), (j : ℕ) < s → d.get (i : ℕ) (j : ℕ) = .ok (some (M i j))
  replaced : ∀ (i : Fin r) (a : Fin k), (a : ℕ) < n → d.get (i : ℕ) ((s + (a : ℕ) : ℕ) : Int) = .ok (some (P i a))

theorem table_mem {p : Mat ℝ} {P : Fin r → Fin k → ℝ} (h : Table p P) (i : Fin r) (a : Fin k) : p.mem[(i : ℕ) + r * a]? = some (P i a) := by
  have g := (get_inv (h.cell i a)).2
  rw [h.rows] at g
  have := (read_eq_ok.1 g).2
  rw [← this]
  congr 1

theorem replaceTail_ok {m : Mat (Val ℝ)} {M : Fin r → Fin (s + c) → ℝ} (h : Holds m M) {p : Mat ℝ} {P : Fin r → Fin k → ℝ} (hp : Table p P)
    (hn : n ≤ k) (hnc : n ≤ c) : ∃ d, replaceTail m (s : Int) (n : Int) (some p) = .ok d ∧ Replaced s n M P d := by
  have hsz := h.wf.size
  rw [h.rows, h.cols] at hsz
  have hsz' : r * (s + c) ≤ m.mem.length := by exact_mod_cast hsz
  have hsr : ((s : Int) * m.rows).toNat = s * r := by
    rw [h.rows, show (s : Int) * (r : Int) = ((s * r : ℕ) : Int) by push_cast; rfl, Int.toNat_natCast]
  have hps := hp.wf.size
  rw [hp.rows, hp.cols] at hps
  have hps' : r * k ≤ p.mem.length := by exact_mod_cast hps
  have hrn : r * n ≤ r * k := Nat.mul_le_mul le_rfl hn
  have hrc : r * n ≤ r * c := Nat.mul_le_mul le_rfl hnc
  have e2 : s * r + r * c ≤ m.mem.length := by rw [Nat.mul_comm s r, ← Nat.mul_add]; exact hsz'
  obtain ⟨l, hl⟩ : ∃ l, p.data = some l := Option.isSome_iff_exists.1 hp.wf.alloc
  have hlm : p.mem = l := by unfold Mat.mem; rw [hl]; rfl
  have hsm : (⟨p.rows, (n : Int), p.data.map (fun l => l.map some)⟩ : Mat (Val ℝ)).mem = l.map some := by
    unfold Mat.mem; rw [hl]; rfl
  have hsl : (⟨p.rows, (n : Int), p.data.map (fun l => l.map some)⟩ : Mat (Val ℝ)).length = ((r * n : ℕ) : Int) := by
    show p.rows * (n : Int) = _
    rw [hp.rows]; push_cast; rfl
  have htm : (tailView m (s : Int)).mem = m.mem.drop (s * r) := by
    show m.mem.drop ((s : Int) * m.rows).toNat = _
    rw [hsr]
  obtain ⟨d', e, er, ec, es, el, eb, eo⟩ := foldlM_copy (l.map some) (r * n) (tailView m (s : Int)) rfl
    (by rw [List.length_map, ← hlm]; omega) (by rw [htm, List.length_drop]; omega)
  have hcopy : (⟨p.rows, (n : Int), p.data.map (fun l => l.map some)⟩ : Mat (Val ℝ)).copyTo00 (tailView m (s : Int)) = .ok d' := by
    unfold Mat.copyTo00
    rw [hsm, hsl]; exact e
  rw [htm, List.length_drop] at el
  have hlt : (m.mem.take (s * r)).length = s * r := by rw [List.length_take]; omega
  have hwf : (⟨m.rows, (n : Int) + s, some (m.mem.take (s * r) ++ d'.mem)⟩ : Mat (Val ℝ)).Wf := by
    refine ⟨h.wf.rows_nonneg, by show (0 : Int) ≤ (n : Int) + s; omega, rfl, ?_⟩
    show m.rows * ((n : Int) + s) ≤ ((m.mem.take (s * r) ++ d'.mem).length : Int)
    rw [List.length_append, hlt, el, h.rows]
    have e3 : (r : Int) * ((n : Int) + s) = ((r * n + s * r : ℕ) : Int) := by push_cast; ring
    rw [e3]; omega
  have hc : (⟨m.rows, (n : Int) + s, some (m.mem.take (s * r) ++ d'.mem)⟩ : Mat (Val ℝ)).cols = ((s + n : ℕ) : Int) := by
    show (n : Int) + s = _
    push_cast; ring
  have hmm : (⟨m.rows, (n : Int) + s, some (m.mem.take (s * r) ++ d'.mem)⟩ : Mat (Val ℝ)).mem = m.mem.take (s * r) ++ d'.mem := rfl
  refine ⟨⟨m.rows, (n : Int) + s, some (m.mem.take (s * r) ++ d'.mem)⟩, ?_, hwf, h.rows, hc, fun i j hj => ?_, fun i a ha => ?_⟩
  · unfold replaceTail
    dsimp only
    rw [hcopy, Outcome.ok_bind, hsr]; rfl
  · refine get_of_mem hwf h.rows hc i.2 (by omega) ?_
    have hlt2 : (i : ℕ) + r * j < s * r := by
      have : r * (j : ℕ) + r ≤ r * s := by
        rw [← Nat.mul_succ]; exact Nat.mul_le_mul le_rfl hj
      have := i.2
      rw [Nat.mul_comm s r]; omega
    rw [hmm, List.getElem?_append_left (by rw [hlt]; exact hlt2), List.getElem?_take, if_pos hlt2]
    exact cell_mem h i j
  · refine get_of_mem hwf h.rows hc i.2 (by omega) ?_
    have hx : (i : ℕ) + r * (s + (a : ℕ)) = s * r + ((i : ℕ) + r * a) := by ring
    have hlt2 : (i : ℕ) + r * a < r * n := by
      have : r * (a : ℕ) + r ≤ r * n := by
        rw [← Nat.mul_succ]; exact Nat.mul_le_mul le_rfl ha
      have := i.2
      omega
    rw [hmm, hx, List.getElem?_append_right (by rw [hlt]; omega), hlt, Nat.add_sub_cancel_left, eb _ hlt2, List.getElem?_map, ← hlm,
      table_mem hp i a]
    rfl

theorem upTo_split (m n : ℕ) (h : m < n) : ∃ l, upTo 0 (n : Int) = upTo 0 (m : Int) ++ (m : Int) :: l := by
  unfold upTo
  refine ⟨((List.range (n - (m + 1))).map (fun x : ℕ => m + 1 + x)).map (fun x : ℕ => (0 : Int) + (x : Int)), ?_⟩
  have : n = m + 1 + (n - (m + 1)) := by omega
  rw [show ((n : Int) - 0).toNat = n by omega, show ((m : Int) - 0).toNat = m by omega]
  conv_lhs => rw [this, List.range_add, List.range_succ, List.map_append, List.map_append, List.append_assoc]
  simp

/-- Copying more cells than one of the two has. -/
theorem copy_ub (src : List (Val ℝ)) (n : ℕ) (d : Mat (Val ℝ)) (hd : d.data.isSome) (h : min src.length d.mem.length < n) :
    (upTo 0 n).foldlM (fun (d : Mat (Val ℝ)) k => do
      let v ← Mx.read src k
      let l ← write d.mem k v
      pure { d with data := some l }) d = .ub := by
  obtain ⟨l, hl⟩ := upTo_split _ n h
  obtain ⟨d', e, -, -, -, el, -, -⟩ := foldlM_copy src (min src.length d.mem.length) d hd (min_le_left _ _) (min_le_right _ _)
  rw [hl, List.foldlM_append, e]
  rw [Outcome.ok_bind, List.foldlM_cons]
  have hub : (do
      let v ← Mx.read src ((min src.length d.mem.length : ℕ) : Int)
      let l ← write d'.mem ((min src.length d.mem.length : ℕ) : Int) v
      pure { d' with data := some l } : Outcome (Mat (Val ℝ))) = .ub := by
    by_cases hm : src.length ≤ d.mem.length
    · rw [min_eq_left hm]
      have : Mx.read src ((src.length : ℕ) : Int) = .ub := by
        unfold Mx.read
        rw [if_pos (by omega), Int.toNat_natCast, List.getElem?_eq_none le_rfl]
      rw [this]; rfl
    · have hm' : d.mem.length < src.length := by omega
      rw [min_eq_right hm'.le]
      have hr : Mx.read src ((d.mem.length : ℕ) : Int) = .ok (src[d.mem.length]'hm') :=
        read_eq_ok.2 ⟨by omega, by rw [Int.toNat_natCast]; exact List.getElem?_eq_getElem hm'⟩
      have hw : ∀ v, write d'.mem ((d.mem.length : ℕ) : Int) v = .ub := by
        intro v; unfold write; rw [if_neg (by rw [el]; omega)]
      rw [hr, Outcome.ok_bind, hw]; rfl
  rw [hub]; rfl

theorem replaceTail_ub {m : Mat (Val ℝ)} {M : Fin r → Fin (s + c) → ℝ} (h : Holds m M) (hm : m.mem.length = r * (s + c))
    {p : Mat ℝ} (hr : p.rows = r) (hd : p.data.isSome) (h0 : 0 < r) (hnc : c < n) :
    replaceTail m (s : Int) (n : Int) (some p) = .ub := by
  have hsr : ((s : Int) * m.rows).toNat = s * r := by
    rw [h.rows, show (s : Int) * (r : Int) = ((s * r : ℕ) : Int) by push_cast; rfl, Int.toNat_natCast]
  obtain ⟨l, hl⟩ : ∃ l, p.data = some l := Option.isSome_iff_exists.1 hd
  have hsm : (⟨p.rows, (n : Int), p.data.map (fun l => l.map some)⟩ : Mat (Val ℝ)).mem = l.map some := by
    unfold Mat.mem; rw [hl]; rfl
  have hsl : (⟨p.rows, (n : Int), p.data.map (fun l => l.map some)⟩ : Mat (Val ℝ)).length = ((r * n : ℕ) : Int) := by
    show p.rows * (n : Int) = _
    rw [hr]; push_cast; rfl
  have htm : (tailView m (s : Int)).mem.length = r * c := by
    show (m.mem.drop ((s : Int) * m.rows).toNat).length = _
    rw [hsr, List.length_drop, hm, Nat.mul_add, Nat.mul_comm s r, Nat.add_sub_cancel_left]
  have hlt : r * c < r * n := Nat.mul_lt_mul_of_pos_left hnc h0
  unfold replaceTail Mat.copyTo00
  dsimp only
  rw [hsm, hsl, copy_ub _ _ _ rfl (by rw [htm]; exact lt_of_le_of_lt (min_le_right _ _) hlt)]
  rfl

end Pc
end LDT
