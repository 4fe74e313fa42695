import Verif.Lemmas.Mixture
import Verif.Props.DistCdf
/-!
# C107, C108: mixtures

The density, mass function and distribution function of a mixture are the weighted averages of those of the components, and `GetMoments`
gives the moments of that density or mass function.
-/
namespace LDT
namespace Di
open Op MeasureTheory Set

/-- The weighted average of the numbers `xs` with weights `ws`. -/
noncomputable def Weighted (ws xs : List ℝ) : ℝ := (List.zipWith (· * ·) ws xs).sum / ws.sum

theorem A_weighted {m : Mix} (G : m.Good) (h : Dist → ℝ) : m.A h = Weighted m.ws (m.ds.map h) := by
  obtain ⟨ws, ds⟩ := m
  have hl : ws.length = ds.length := G.len
  have : ∀ (ws : List ℝ) (ds : List Dist), ws.length = ds.length →
      ((ws.zip ds).map fun p => p.1 * h p.2) = List.zipWith (· * ·) ws (ds.map h) ∧ ((ws.zip ds).map fun p => p.1) = ws := by
    intro ws
    induction ws with
    | nil => intro ds h; simp
    | cons w ws ih =>
      intro ds hl
      obtain ⟨d, ds, rfl⟩ := List.exists_cons_of_length_pos (l := ds) (by rw [← hl]; simp)
      obtain ⟨h1, h2⟩ := ih ds (by simpa using hl)
      simp [h1, h2]
  obtain ⟨h1, h2⟩ := this ws ds hl
  unfold Mix.A Weighted Mix.parts
  rw [h1, h2]

/-! ## The constructor -/

/-- A mixture is accepted exactly if there is a positive weight for every component, and at least one component. -/
theorem C107_accepted (ws : List ℝ) (ds : List Dist) :
    (ws.length = ds.length ∧ ws ≠ [] ∧ (∀ w ∈ ws, 0 < w) → ∃ m, makeMix ws ds = .ok m ∧ m.ws = ws ∧ m.ds = ds) ∧
    (¬ (ws.length = ds.length ∧ ws ≠ [] ∧ ∀ w ∈ ws, 0 < w) → makeMix ws ds = .throws) := by
  constructor
  · rintro ⟨h1, h2, h3⟩
    refine ⟨⟨ws, ds⟩, ?_, rfl, rfl⟩
    unfold makeMix
    rw [if_neg (not_not.mpr h1), if_neg (by rintro ⟨w, hw, hn⟩; exact absurd (h3 w hw) (not_lt.mpr hn)), if_neg (by simpa using h2)]
  · intro h
    unfold makeMix
    split_ifs with h1 h2 h3
    · rfl
    · rfl
    · rfl
    · exfalso
      refine h ⟨not_not.mp h1, fun e => h3 (by simp [e]), fun w hw => ?_⟩
      by_contra hn
      exact h2 ⟨w, hw, not_lt.mp hn⟩

theorem type_continuous {ds : List Dist} (hne : ds ≠ []) (h : ∀ d ∈ ds, d.isDiscrete = false) : mixType ds = .continuous := by
  obtain ⟨d, l, rfl⟩ := List.exists_cons_of_ne_nil hne
  have := h d (by simp)
  unfold mixType
  rw [if_neg (by simp [this]), if_pos (by simpa using ⟨this, fun e he => h e (by simp [he])⟩)]

theorem type_discrete {ds : List Dist} (h : ∀ d ∈ ds, d.isDiscrete = true) : mixType ds = .discrete := by
  unfold mixType
  rw [if_pos (by simpa using h)]

theorem type_both {ds : List Dist} {d e : Dist} (hd : d ∈ ds) (he : e ∈ ds) (h1 : d.isDiscrete = true) (h2 : e.isDiscrete = false) : mixType ds = .both := by
  unfold mixType
  rw [if_neg (by simpa using ⟨e, he, h2⟩), if_neg (by simpa using ⟨d, hd, h1⟩)]

theorem Mix.Good.ds_ne {m : Mix} (G : m.Good) : m.ds ≠ [] := by
  intro h
  have := G.len
  rw [h] at this
  exact G.ne (List.length_eq_zero_iff.mp this)

/-- A mixture of discrete and continuous components has no density and no mass function. -/
theorem C107_both (ws : List ℝ) (ds : List Dist) (m : Mix) (hm : makeMix ws ds = .ok m) (d e : Dist) (hd : d ∈ ds) (he : e ∈ ds) (h1 : d.isDiscrete = true)
    (h2 : e.isDiscrete = false) (x : ℝ) : m.pdf x = .throws ∧ m.logPdf x = .throws := by
  obtain ⟨rfl, G⟩ := good_of_make hm
  have : (Mix.mk ws ds).pdf x = .throws := by
    unfold Mix.pdf
    rw [if_pos (type_both hd he h1 h2)]
  exact ⟨this, by unfold Mix.logPdf; rw [this]; rfl⟩

/-! ## Density, mass function and distribution function -/

/-- The points where some component may have no number. -/
theorem mix_density {m : Mix} (G : m.Good) (hc : ∀ d ∈ m.ds, d.isDiscrete = false) (hd : ∀ d ∈ m.ds, ∃ E, IsDensity d.pdf E) :
    ∃ E : Set ℝ, E.Finite ∧ (∀ x, m.pdf x = .ok (m.avg fun d => d.pdf x)) ∧ (∀ x, x ∉ E → (m.avg fun d => d.pdf x) = .num (m.A fun d => real (d.pdf x))) ∧
      (∀ x, x ∉ E → ∀ d ∈ m.ds, 0 ≤ real (d.pdf x)) := by
  classical
  choose! E hE using hd
  refine ⟨⋃ d ∈ {d | d ∈ m.ds}, E d, (List.finite_toSet m.ds).biUnion fun d h => (hE d h).few, fun x => ?_, fun x hx => ?_, fun x hx d h => ?_⟩
  · unfold Mix.pdf
    rw [if_neg (by rw [type_continuous G.ds_ne hc]; simp)]
  · refine Mix.avg_num G fun d h => ?_
    obtain ⟨w, hw, -⟩ := (hE d h).finite x (fun hh => hx (mem_biUnion (x := d) h hh))
    rw [hw]; rfl
  · obtain ⟨w, hw, h0⟩ := (hE d h).finite x (fun hh => hx (mem_biUnion (x := d) h hh))
    rw [hw]; exact h0

/-- Continuous components with densities: the mixture has one, the weighted average. -/
theorem C107_density (ws : List ℝ) (ds : List Dist) (m : Mix) (hm : makeMix ws ds = .ok m) (hc : ∀ d ∈ ds, d.isDiscrete = false)
    (hd : ∀ d ∈ ds, ∃ E, IsDensity d.pdf E) :
    ∃ (f : ℝ → Dbl ℝ) (E : Set ℝ), (∀ x, m.pdf x = .ok (f x)) ∧ IsDensity f E ∧ ∀ x, x ∉ E → f x = .num (Weighted ws (ds.map fun d => real (d.pdf x))) := by
  obtain ⟨rfl, G⟩ := good_of_make hm
  obtain ⟨E, hE, h1, h2, h3⟩ := mix_density G hc hd
  refine ⟨_, E, h1, density_of hE h2 (fun x hx => ?_) ?_, fun x hx => by rw [h2 x hx, A_weighted G]⟩
  · have := Mix.A_mono G (h := fun _ => 0 * 1) (k := fun d => real (d.pdf x)) (fun d h => by simpa using h3 x hx d h)
    rw [Mix.A_smul, zero_mul] at this
    exact this
  · have := intAvg_mix (Mix.mk ws ds) (fun _ => 1) (fun _ => 1) (fun d x => real (d.pdf x)) (fun p hp => by
      obtain ⟨E, h⟩ := hd p.2 (G.parts_mem p hp)
      exact h.total)
    rwa [Mix.A_one G] at this

/-- Discrete components with mass functions: the mixture has one, the weighted average. -/
theorem C107_mass (ws : List ℝ) (ds : List Dist) (m : Mix) (hm : makeMix ws ds = .ok m) (hc : ∀ d ∈ ds, d.isDiscrete = true)
    (hd : ∀ d ∈ ds, IsMass d.pdf) :
    ∃ f : ℝ → Dbl ℝ, (∀ x, m.pdf x = .ok (f x)) ∧ IsMass f ∧ ∀ k : ℤ, f k = .num (Weighted ws (ds.map fun d => d.mass k)) := by
  obtain ⟨rfl, G⟩ := good_of_make hm
  have h2 : ∀ k : ℤ, ((Mix.mk ws ds).avg fun d => d.pdf k) = .num ((Mix.mk ws ds).A fun d => d.mass k) := fun k => by
    refine Mix.avg_num G fun d h => ?_
    obtain ⟨w, hw, -⟩ := (hd d h).finite k
    rw [Dist.mass, hw]; rfl
  refine ⟨fun x => (Mix.mk ws ds).avg fun d => d.pdf x, fun x => ?_, isMass_of (w := fun k => (Mix.mk ws ds).A fun d => d.mass k) h2 (fun k => ?_) ?_, fun k => ?_⟩
  · unfold Mix.pdf
    rw [if_neg (by rw [type_discrete hc]; simp)]
  · have := Mix.A_mono G (h := fun _ => 0 * 1) (k := fun d => d.mass k) (fun d h => by
      obtain ⟨w, hw, h0⟩ := (hd d h).finite k
      simp [Dist.mass, hw, real, h0])
    rw [Mix.A_smul, zero_mul] at this
    exact this
  · have := sumAvg_mix (Mix.mk ws ds) (fun _ => 1) (fun _ => 1) (fun d k => d.mass k) (fun p hp => (hd p.2 (G.parts_mem p hp)).total)
    rwa [Mix.A_one G] at this
  · exact (h2 k).trans (by rw [A_weighted G])

theorem upTo_iff_avg (f : ℝ → ℝ) (x c : ℝ) : IntUpTo f x c ↔ IntAvg f (fun y => if y ≤ x then 1 else 0) c := by
  have e : (fun y => f y * if y ≤ x then 1 else 0) = (Iic x).indicator f := by
    funext y
    by_cases h : y ≤ x <;> simp [indicator, h]
  unfold IntUpTo IntAvg
  rw [e, integrable_indicator_iff measurableSet_Iic, integral_indicator measurableSet_Iic]

theorem sumUpTo_iff_avg (w : ℤ → ℝ) (x c : ℝ) : SumUpTo w x c ↔ SumAvg w (fun y => if y ≤ x then 1 else 0) c := by
  unfold SumUpTo SumAvg
  have e : (fun k : ℤ => w k * if (k : ℝ) ≤ x then 1 else 0) = fun k : ℤ => if (k : ℝ) ≤ x then w k else 0 := by
    funext k
    split_ifs <;> simp
  rw [e]

/-- `GetCdf` of continuous components that report their distribution functions. -/
theorem C107_cdf (S : Fns) (ws : List ℝ) (ds : List Dist) (m : Mix) (hm : makeMix ws ds = .ok m) (hc : ∀ d ∈ ds, d.isDiscrete = false)
    (hd : ∀ d ∈ ds, (∃ E, IsDensity d.pdf E) ∧ d.CdfOfDensity S) (x : ℝ) :
    ∃ (f : ℝ → Dbl ℝ) (c : ℝ), (∀ x, m.pdf x = .ok (f x)) ∧ m.cdf S x = .num c ∧ IntUpTo (fun y => real (f y)) x c := by
  obtain ⟨rfl, G⟩ := good_of_make hm
  obtain ⟨E, hE, h1, h2, -⟩ := mix_density G hc (fun d h => (hd d h).1)
  have hcdf : ∀ d ∈ ds, d.cdf S x = .num (real (d.cdf S x)) ∧ IntUpTo (fun y => real (d.pdf y)) x (real (d.cdf S x)) := fun d h => by
    obtain ⟨c, e, u⟩ := (hd d h).2 x
    rw [e]; exact ⟨rfl, u⟩
  refine ⟨_, (Mix.mk ws ds).A fun d => real (d.cdf S x), h1, Mix.avg_num G fun d h => (hcdf d h).1, ?_⟩
  rw [upTo_iff_avg]
  refine intAvg_congr hE (f := fun y => (Mix.mk ws ds).A fun d => real (d.pdf y)) (fun y hy => by rw [h2 y hy]; rfl) ?_
  exact intAvg_mix (Mix.mk ws ds) _ (fun d => real (d.cdf S x)) (fun d y => real (d.pdf y)) fun p hp => (upTo_iff_avg _ _ _).mp (hcdf p.2 (G.parts_mem p hp)).2

/-- `GetCdf` of discrete components that report their distribution functions at `x`. -/
theorem C107_cdf_mass (S : Fns) (ws : List ℝ) (ds : List Dist) (m : Mix) (hm : makeMix ws ds = .ok m) (hc : ∀ d ∈ ds, d.isDiscrete = true) (x : ℝ)
    (hd : ∀ d ∈ ds, IsMass d.pdf ∧ d.CdfOfMassAt S x) :
    ∃ (f : ℝ → Dbl ℝ) (c : ℝ), (∀ x, m.pdf x = .ok (f x)) ∧ m.cdf S x = .num c ∧ SumUpTo (fun k => real (f k)) x c := by
  obtain ⟨f, h1, -, h2⟩ := C107_mass ws ds m hm hc (fun d h => (hd d h).1)
  obtain ⟨rfl, G⟩ := good_of_make hm
  have hcdf : ∀ d ∈ ds, d.cdf S x = .num (real (d.cdf S x)) ∧ SumUpTo d.mass x (real (d.cdf S x)) := fun d h => by
    obtain ⟨c, e, u⟩ := (hd d h).2
    rw [e]; exact ⟨rfl, u⟩
  refine ⟨f, (Mix.mk ws ds).A fun d => real (d.cdf S x), h1, Mix.avg_num G fun d h => (hcdf d h).1, ?_⟩
  rw [sumUpTo_iff_avg]
  have e : (fun k : ℤ => real (f k)) = fun k => (Mix.mk ws ds).A fun d => d.mass k := by
    funext k; rw [h2 k, A_weighted G]; rfl
  rw [e]
  exact sumAvg_mix (Mix.mk ws ds) _ (fun d => real (d.cdf S x)) (fun d y => d.mass y) fun p hp => (sumUpTo_iff_avg _ _ _).mp (hcdf p.2 (G.parts_mem p hp)).2

/-- Whatever the types: where every component reports a number, `GetCdf` is their weighted average. -/
theorem C107_cdf_average (S : Fns) (ws : List ℝ) (ds : List Dist) (m : Mix) (hm : makeMix ws ds = .ok m) (x : ℝ)
    (hd : ∀ d ∈ ds, ∃ c, d.cdf S x = .num c) : m.cdf S x = .num (Weighted ws (ds.map fun d => real (d.cdf S x))) := by
  obtain ⟨rfl, G⟩ := good_of_make hm
  unfold Mix.cdf
  rw [Mix.avg_num G (h := fun d => real (d.cdf S x)) (fun d h => by obtain ⟨c, e⟩ := hd d h; rw [e]; rfl), A_weighted G]

/-! ## The range -/

theorem minimum_cases (d : Dist) : d.minimum = .ninf ∨ ∃ x, d.minimum = .num x := by
  unfold Dist.minimum; split <;> simp

theorem maximum_cases (d : Dist) : d.maximum = .pinf ∨ ∃ x, d.maximum = .num x := by
  unfold Dist.maximum; split <;> simp

theorem dlt_trans {x y z : Dbl ℝ} (h1 : x.lt y = true) (h2 : y.lt z = true) : x.lt z = true := by
  cases x <;> cases y <;> cases z <;> simp_all [Dbl.lt]
  linarith

theorem dlt_irrefl (x : Dbl ℝ) : x.lt x = false := by
  cases x <;> simp [Dbl.lt]

theorem dlt_asymm {x y : Dbl ℝ} (h : x.lt y = true) : y.lt x = false := by
  by_contra hn
  have := dlt_trans h (by simpa using hn)
  rw [dlt_irrefl] at this
  cases this

theorem fold_min (l : List Dist) (a : Dbl ℝ) (ha : a = .ninf ∨ a = .pinf ∨ ∃ x, a = .num x) :
    let r := l.foldl (fun a d => if d.minimum.lt a then d.minimum else a) a
    (r = a ∨ ∃ d ∈ l, r = d.minimum) ∧ (∀ d ∈ l, d.minimum.lt r = false) ∧ (r.lt a = true ∨ r = a) := by
  induction l generalizing a with
  | nil => simp
  | cons e l ih =>
    intro r
    have hr : r = l.foldl (fun a d => if d.minimum.lt a then d.minimum else a) (if e.minimum.lt a then e.minimum else a) := rfl
    by_cases h : e.minimum.lt a = true
    · rw [if_pos h] at hr
      obtain ⟨h1, h2, h3⟩ := ih e.minimum (by rcases minimum_cases e with h | ⟨x, h⟩ <;> simp [h])
      rw [← hr] at h1 h2 h3
      refine ⟨Or.inr ?_, fun d hd => ?_, Or.inl ?_⟩
      · rcases h1 with h1 | ⟨d, hd, h1⟩
        · exact ⟨e, by simp, h1⟩
        · exact ⟨d, by simp [hd], h1⟩
      · rcases List.mem_cons.mp hd with rfl | hd
        · rcases h3 with h3 | h3
          · exact dlt_asymm h3
          · rw [h3]; exact dlt_irrefl _
        · exact h2 d hd
      · rcases h3 with h3 | h3
        · exact dlt_trans h3 h
        · rw [h3]; exact h
    · rw [if_neg h] at hr
      obtain ⟨h1, h2, h3⟩ := ih a ha
      rw [← hr] at h1 h2 h3
      refine ⟨?_, fun d hd => ?_, h3⟩
      · rcases h1 with h1 | ⟨d, hd, h1⟩
        · exact Or.inl h1
        · exact Or.inr ⟨d, by simp [hd], h1⟩
      · rcases List.mem_cons.mp hd with rfl | hd
        · rcases h3 with h3 | h3
          · by_contra hh
            exact h (dlt_trans (by simpa using hh) h3)
          · rw [h3]; simpa using h
        · exact h2 d hd

/-- `GetMinimum` is the smallest minimum of a component. -/
theorem C107_minimum (ws : List ℝ) (ds : List Dist) (m : Mix) (hm : makeMix ws ds = .ok m) :
    (∃ d ∈ ds, m.minimum = d.minimum) ∧ ∀ d ∈ ds, d.minimum.lt m.minimum = false := by
  obtain ⟨rfl, G⟩ := good_of_make hm
  obtain ⟨h1, h2, h3⟩ := fold_min ds .pinf (by simp)
  refine ⟨?_, h2⟩
  rcases h1 with h1 | h1
  · exfalso
    obtain ⟨d, l, e⟩ := List.exists_cons_of_ne_nil (show ds ≠ [] from G.ds_ne)
    have := h2 d (by simp [e])
    rw [h1] at this
    rcases minimum_cases d with h | ⟨x, h⟩ <;> rw [h] at this <;> simp [Dbl.lt] at this
  · exact h1

theorem fold_max (l : List Dist) (a : Dbl ℝ) (ha : a = .ninf ∨ a = .pinf ∨ ∃ x, a = .num x) :
    let r := l.foldl (fun a d => if a.lt d.maximum then d.maximum else a) a
    (r = a ∨ ∃ d ∈ l, r = d.maximum) ∧ (∀ d ∈ l, r.lt d.maximum = false) ∧ (a.lt r = true ∨ r = a) := by
  induction l generalizing a with
  | nil => simp
  | cons e l ih =>
    intro r
    have hr : r = l.foldl (fun a d => if a.lt d.maximum then d.maximum else a) (if a.lt e.maximum then e.maximum else a) := rfl
    by_cases h : a.lt e.maximum = true
    · rw [if_pos h] at hr
      obtain ⟨h1, h2, h3⟩ := ih e.maximum (by rcases maximum_cases e with h | ⟨x, h⟩ <;> simp [h])
      rw [← hr] at h1 h2 h3
      refine ⟨Or.inr ?_, fun d hd => ?_, Or.inl ?_⟩
      · rcases h1 with h1 | ⟨d, hd, h1⟩
        · exact ⟨e, by simp, h1⟩
        · exact ⟨d, by simp [hd], h1⟩
      · rcases List.mem_cons.mp hd with rfl | hd
        · rcases h3 with h3 | h3
          · exact dlt_asymm h3
          · rw [h3]; exact dlt_irrefl _
        · exact h2 d hd
      · rcases h3 with h3 | h3
        · exact dlt_trans h h3
        · rw [h3]; exact h
    · rw [if_neg h] at hr
      obtain ⟨h1, h2, h3⟩ := ih a ha
      rw [← hr] at h1 h2 h3
      refine ⟨?_, fun d hd => ?_, h3⟩
      · rcases h1 with h1 | ⟨d, hd, h1⟩
        · exact Or.inl h1
        · exact Or.inr ⟨d, by simp [hd], h1⟩
      · rcases List.mem_cons.mp hd with rfl | hd
        · rcases h3 with h3 | h3
          · by_contra hh
            exact h (dlt_trans h3 (by simpa using hh))
          · rw [h3]; simpa using h
        · exact h2 d hd

/-- `GetMaximum` is the largest maximum of a component. -/
theorem C107_maximum (ws : List ℝ) (ds : List Dist) (m : Mix) (hm : makeMix ws ds = .ok m) :
    (∃ d ∈ ds, m.maximum = d.maximum) ∧ ∀ d ∈ ds, m.maximum.lt d.maximum = false := by
  obtain ⟨rfl, G⟩ := good_of_make hm
  obtain ⟨h1, h2, h3⟩ := fold_max ds .ninf (by simp)
  refine ⟨?_, h2⟩
  rcases h1 with h1 | h1
  · exfalso
    obtain ⟨d, l, e⟩ := List.exists_cons_of_ne_nil (show ds ≠ [] from G.ds_ne)
    have := h2 d (by simp [e])
    rw [h1] at this
    rcases maximum_cases d with h | ⟨x, h⟩ <;> rw [h] at this <;> simp [Dbl.lt] at this
  · exact h1

/-- The logarithm is that of the density. -/
theorem C107_log (ws : List ℝ) (ds : List Dist) (m : Mix) (_ : makeMix ws ds = .ok m) (x : ℝ) :
    (∀ w : ℝ, 0 < w → m.pdf x = .ok (.num w) → m.logPdf x = .ok (.num (Real.log w))) ∧ (m.pdf x = .ok (.num 0) → m.logPdf x = .ok .ninf) := by
  refine ⟨fun w hw h => ?_, fun h => ?_⟩
  · unfold Mix.logPdf; rw [h]
    show Outcome.ok _ = _
    simp [logOf, logD, hw]
  · unfold Mix.logPdf; rw [h]
    show Outcome.ok _ = _
    simp [logOf, logD]

/-! ## C108: moments -/

/-- Continuous components whose reported moments are those of their densities, with positive variances: so it is for the mixture. -/
theorem C108_continuous (ws : List ℝ) (ds : List Dist) (m : Mix) (hm : makeMix ws ds = .ok m) (hc : ∀ d ∈ ds, d.isDiscrete = false)
    (hd : ∀ d ∈ ds, (∃ E, d.DescribesDensity E) ∧ ∃ v, d.variance = .num v ∧ 0 < v) :
    ∃ (f : ℝ → Dbl ℝ) (a v s k : ℝ), (∀ x, m.pdf x = .ok (f x)) ∧ m.moments4 = (.num a, .num v, .num s, .num k) ∧ m.moments2 = (.num a, .num v) ∧ 0 < v ∧
      MeanVar (IntAvg fun x => real (f x)) a v ∧ Skew (IntAvg fun x => real (f x)) a v s ∧ Kurt (IntAvg fun x => real (f x)) a v k := by
  obtain ⟨rfl, G⟩ := good_of_make hm
  obtain ⟨E, hE, h1, h2, -⟩ := mix_density G hc (fun d h => by obtain ⟨E, h, -⟩ := (hd d h).1; exact ⟨E, h⟩)
  have P : Parts4 ⟨ws, ds⟩ (fun d => IntAvg fun x => real (d.pdf x)) := ⟨fun d _ => intAvg_lin _, fun d h => by
    obtain ⟨⟨E, -, a, v, e1, e2, e3, -, e4⟩, v', e5, e6⟩ := hd d h
    rw [e2] at e5
    obtain rfl := Dbl.num.inj e5
    obtain ⟨s, k, e7, e8, e9, e10⟩ := e4 e6
    exact ⟨a, v, s, k, e1, e2, e3, e6, e7, e8, e9, e10⟩⟩
  obtain ⟨a, v, s, k, h4, hv, r1, r2, r3⟩ := moments4_of G P (avgM := IntAvg fun x => real ((Mix.mk ws ds).avg fun d => d.pdf x)) (fun g c h =>
    intAvg_congr hE (f := fun y => (Mix.mk ws ds).A fun d => real (d.pdf y)) (fun y hy => by rw [h2 y hy]; rfl) (intAvg_mix _ g c (fun d y => real (d.pdf y)) h))
  refine ⟨_, a, v, s, k, h1, h4, ?_, hv, r1, r2, r3⟩
  unfold Mix.moments4 at h4
  rw [Prod.mk.injEq, Prod.mk.injEq] at h4
  unfold Mix.moments2
  rw [h4.1, h4.2.1]

/-- The mean and variance alone need no positive variances and no higher moments. -/
theorem C108_continuous_two (ws : List ℝ) (ds : List Dist) (m : Mix) (hm : makeMix ws ds = .ok m) (hc : ∀ d ∈ ds, d.isDiscrete = false)
    (hd : ∀ d ∈ ds, (∃ E, IsDensity d.pdf E) ∧ ∃ a v, d.mean = .num a ∧ d.variance = .num v ∧ MeanVar (IntAvg fun x => real (d.pdf x)) a v) :
    ∃ (f : ℝ → Dbl ℝ) (a v : ℝ), (∀ x, m.pdf x = .ok (f x)) ∧ m.moments2 = (.num a, .num v) ∧ MeanVar (IntAvg fun x => real (f x)) a v := by
  obtain ⟨rfl, G⟩ := good_of_make hm
  obtain ⟨E, hE, h1, h2, -⟩ := mix_density G hc (fun d h => (hd d h).1)
  have P : Parts2 ⟨ws, ds⟩ (fun d => IntAvg fun x => real (d.pdf x)) := ⟨fun d _ => intAvg_lin _, fun d h => (hd d h).2⟩
  obtain ⟨e1, e2, r⟩ := moments2_of G P (avgM := IntAvg fun x => real ((Mix.mk ws ds).avg fun d => d.pdf x)) (fun g c h =>
    intAvg_congr hE (f := fun y => (Mix.mk ws ds).A fun d => real (d.pdf y)) (fun y hy => by rw [h2 y hy]; rfl) (intAvg_mix _ g c (fun d y => real (d.pdf y)) h))
  exact ⟨_, _, _, h1, by unfold Mix.moments2; rw [e1, e2], r⟩

/-- The same for discrete components. -/
theorem C108_discrete (ws : List ℝ) (ds : List Dist) (m : Mix) (hm : makeMix ws ds = .ok m) (hc : ∀ d ∈ ds, d.isDiscrete = true)
    (hd : ∀ d ∈ ds, d.DescribesMass ∧ ∃ v, d.variance = .num v ∧ 0 < v) :
    ∃ (f : ℝ → Dbl ℝ) (a v s k : ℝ), (∀ x, m.pdf x = .ok (f x)) ∧ m.moments4 = (.num a, .num v, .num s, .num k) ∧ m.moments2 = (.num a, .num v) ∧ 0 < v ∧
      MeanVar (SumAvg fun k => real (f k)) a v ∧ Skew (SumAvg fun k => real (f k)) a v s ∧ Kurt (SumAvg fun k => real (f k)) a v k := by
  obtain ⟨f, h1, -, h2⟩ := C107_mass ws ds m hm hc (fun d h => (hd d h).1.1)
  obtain ⟨rfl, G⟩ := good_of_make hm
  have P : Parts4 ⟨ws, ds⟩ (fun d => SumAvg d.mass) := ⟨fun d _ => sumAvg_lin _, fun d h => by
    obtain ⟨⟨-, a, v, e1, e2, e3, -, e4⟩, v', e5, e6⟩ := hd d h
    rw [e2] at e5
    obtain rfl := Dbl.num.inj e5
    obtain ⟨s, k, e7, e8, e9, e10⟩ := e4 e6
    exact ⟨a, v, s, k, e1, e2, e3, e6, e7, e8, e9, e10⟩⟩
  have e : (fun k : ℤ => real (f k)) = fun k => (Mix.mk ws ds).A fun d => d.mass k := by
    funext k; rw [h2 k, A_weighted G]; rfl
  obtain ⟨a, v, s, k, h4, hv, r1, r2, r3⟩ := moments4_of G P (avgM := SumAvg fun k => real (f k)) (fun g c h => by
    rw [e]; exact sumAvg_mix _ g c (fun d y => d.mass y) h)
  refine ⟨f, a, v, s, k, h1, h4, ?_, hv, r1, r2, r3⟩
  unfold Mix.moments4 at h4
  rw [Prod.mk.injEq, Prod.mk.injEq] at h4
  unfold Mix.moments2
  rw [h4.1, h4.2.1]

/-- `GetMomentsNormal` agrees with `GetMoments` for normal components, and whenever all skewness and excess kurtosis are zero. -/
theorem C108_normal (ws : List ℝ) (ds : List Dist) (m : Mix) (hm : makeMix ws ds = .ok m)
    (hd : ∀ d ∈ ds, ∃ a v, d.mean = .num a ∧ d.variance = .num v ∧ 0 ≤ v ∧ d.skewness = .num 0 ∧ d.kurtosis = .num 0) : m.momentsNormal = m.moments4 := by
  obtain ⟨rfl, G⟩ := good_of_make hm
  have hmean : ∀ d ∈ ds, d.mean = .num (real d.mean) := fun d h => by obtain ⟨a, v, h1, -⟩ := hd d h; rw [h1]; rfl
  obtain ⟨c, hc⟩ : ∃ c, (Mix.mk ws ds).mean = .num c := ⟨_, Mix.avg_num G hmean⟩
  have congr_avg : ∀ f g : Dist → Dbl ℝ, (∀ d ∈ ds, f d = g d) → (Mix.mk ws ds).avg f = (Mix.mk ws ds).avg g := fun f g h => by
    unfold Mix.avg
    congr 1
    exact List.map_congr_left fun p hp => by rw [h p.2 (G.parts_mem p hp)]
  unfold Mix.momentsNormal Mix.moments4 Mix.skewness Mix.kurtosis
  dsimp only
  rw [hc]
  refine congrArg₂ Prod.mk rfl (congrArg₂ Prod.mk rfl (congrArg₂ Prod.mk (congrArg₂ divD (congr_avg _ _ fun d h => ?_) rfl)
    (congrArg₂ subD (congrArg₂ divD (congr_avg _ _ fun d h => ?_) rfl) rfl)))
  · obtain ⟨a, v, e1, e2, e0, e3, -⟩ := hd d h
    rw [e1, e2, e3]
    simp only [pow15D, if_pos e0]
    show Dbl.num _ = Dbl.num _
    congr 1
    ring
  · obtain ⟨a, v, e1, e2, e0, e3, e4⟩ := hd d h
    rw [e1, e2, e3, e4]
    simp only [pow15D, if_pos e0]
    show Dbl.num _ = Dbl.num _
    congr 1
    ring

/-! ## Concrete mixtures -/

/-- A mixture of two normal laws meets the hypotheses, with mean 2, variance 4. -/
example : ∃ m, makeMix [1, 3] [⟨.normal, -1, 1⟩, ⟨.normal, 3, 1⟩] = .ok m ∧ m.moments2 = (.num 2, .num 4) := by
  refine ⟨⟨[1, 3], [⟨.normal, -1, 1⟩, ⟨.normal, 3, 1⟩]⟩, by simp [makeMix], ?_⟩
  have G : (Mix.mk [1, 3] [⟨.normal, -1, 1⟩, ⟨.normal, 3, 1⟩]).Good := ⟨rfl, by simp, by simp⟩
  have hmean : (Mix.mk [1, 3] [⟨.normal, -1, 1⟩, ⟨.normal, 3, 1⟩]).mean = .num 2 := by
    unfold Mix.mean
    rw [Mix.avg_num G (h := fun d => d.p1) (by simp [Dist.mean])]
    simp [Mix.A, Mix.parts]; norm_num
  unfold Mix.moments2 Mix.variance
  rw [hmean, Mix.avg_num G (h := fun d => d.p1 ^ 2 + d.p2 ^ 2) (by simp [Dist.mean, Dist.variance, powD, addD])]
  simp [Mix.A, Mix.parts, mulD, scaleD, subD, addD]; norm_num

example : ∃ d, make .normal (-1) 1 = .ok d ∧ d.isDiscrete = false ∧ (∃ E, d.DescribesDensity E) ∧ ∃ v, d.variance = .num v ∧ 0 < v := by
  have h : make .normal (-1) 1 = .ok ⟨.normal, -1, 1⟩ := by simp only [make]; rw [if_neg (by norm_num)]
  exact ⟨_, h, rfl, ⟨∅, C100_normal _ _ one_pos _ h⟩, 1 * 1, by simp [Dist.variance], by norm_num⟩

/-! ## Violations -/

/-- A component without a mean is skipped: the mixture reports a mean although there is none. -/
theorem C108_missing_violated : ∃ (t n : Dist) (m : Mix) (f : ℝ → Dbl ℝ), make .t 1 0 = .ok t ∧ make .normal 5 1 = .ok n ∧ makeMix [1, 1] [t, n] = .ok m ∧ m.mean = .num 5 ∧
    (∀ x, m.pdf x = .ok (f x)) ∧ ∀ a, ¬ IntAvg (fun x => real (f x)) (fun x => x) a := by
  have ht : make .t 1 0 = .ok ⟨.t, 1, 0⟩ := by simp only [make]; rw [if_neg (by norm_num)]
  have hn : make .normal 5 1 = .ok ⟨.normal, 5, 1⟩ := by simp only [make]; rw [if_neg (by norm_num)]
  have hm : makeMix [1, 1] [⟨.t, 1, 0⟩, ⟨.normal, 5, 1⟩] = .ok ⟨[1, 1], [⟨.t, 1, 0⟩, ⟨.normal, 5, 1⟩]⟩ := by simp [makeMix]
  obtain ⟨-, G⟩ := good_of_make hm
  refine ⟨_, _, _, fun x => .num ((tF 1 x + normF 5 1 x) / 2), ht, hn, hm, ?_, fun x => ?_, fun a ha => ?_⟩
  · have e1 : (Dist.mk .t 1 0).mean = .nan := by simp [Dist.mean]
    have e2 : (Dist.mk .normal 5 1).mean = .num 5 := rfl
    simp [Mix.mean, Mix.avg, Mix.parts, wavg, e1, e2, push1, isNan, scaleD, addD, divD, quot]
  · have : (Mix.mk [1, 1] [⟨.t, 1, 0⟩, ⟨.normal, 5, 1⟩]).pdf x = .ok ((Mix.mk [1, 1] [⟨.t, 1, 0⟩, ⟨.normal, 5, 1⟩]).avg fun d => d.pdf x) := by
      unfold Mix.pdf
      rw [if_neg (by decide)]
    rw [this, Mix.avg_num G (h := fun d => real (d.pdf x)) (by simp [t_pdf, normal_pdf one_pos, real])]
    simp only [Mix.A, Mix.parts, List.zip_cons_cons, List.zip_nil_right, List.map_cons, List.map_nil, List.sum_cons, List.sum_nil, t_pdf, normal_pdf one_pos, real]
    congr 2
    ring
  · have hN := (C100_normal 5 1 one_pos _ hn).2
    obtain ⟨a', v', -, -, M, -⟩ := hN
    have e : (fun x => real ((Dist.mk .normal 5 1).pdf x)) = normF 5 1 := by funext x; rw [normal_pdf one_pos]; rfl
    rw [e] at M
    have hT := ((C100_t_none 1 0 _ ht).1 le_rfl).2
    have e' : (fun x => real ((Dist.mk .t 1 0).pdf x)) = tF 1 := by funext x; rw [t_pdf]; rfl
    rw [e'] at hT
    refine hT (∫ x, tF 1 x * x) ⟨?_, rfl⟩
    have i1 := (ha.1.const_mul 2).sub M.mean.1
    refine i1.congr (Filter.Eventually.of_forall fun x => ?_)
    simp only [real, Pi.sub_apply]
    ring

/-- Components of variance zero make the skewness and kurtosis of the mixture `NaN`, although the mixture, the fair coin, has them. -/
theorem C108_degenerate_violated : ∃ d e m, make .bernoulli 0 0 = .ok d ∧ make .bernoulli 1 0 = .ok e ∧ makeMix [1, 1] [d, e] = .ok m ∧
    m.mean = .num (1 / 2) ∧ m.variance = .num (1 / 4) ∧ m.skewness = .nan ∧ m.kurtosis = .nan := by
  have h0 : make .bernoulli 0 0 = .ok ⟨.bernoulli, 0, 0⟩ := by simp only [make]; rw [if_neg (by norm_num)]
  have h1 : make .bernoulli 1 0 = .ok ⟨.bernoulli, 1, 0⟩ := by simp only [make]; rw [if_neg (by norm_num)]
  have hm : makeMix [1, 1] [⟨.bernoulli, 0, 0⟩, ⟨.bernoulli, 1, 0⟩] = .ok ⟨[1, 1], [⟨.bernoulli, 0, 0⟩, ⟨.bernoulli, 1, 0⟩]⟩ := by simp [makeMix]
  obtain ⟨-, G⟩ := good_of_make hm
  have hmean : (Mix.mk [1, 1] [⟨.bernoulli, 0, 0⟩, ⟨.bernoulli, 1, 0⟩]).mean = .num (1 / 2) := by
    unfold Mix.mean
    rw [Mix.avg_num G (h := fun d => d.p1) (by simp [Dist.mean])]
    simp [Mix.A, Mix.parts]; norm_num
  have hvar : (Mix.mk [1, 1] [⟨.bernoulli, 0, 0⟩, ⟨.bernoulli, 1, 0⟩]).variance = .num (1 / 4) := by
    unfold Mix.variance
    rw [hmean, Mix.avg_num G (h := fun d => d.p1 ^ 2) (by simp [Dist.mean, Dist.variance, powD, addD])]
    simp [Mix.A, Mix.parts, mulD, scaleD, subD, addD]; norm_num
  have s0 : (Dist.mk .bernoulli 0 0).skewness = .pinf := by simp [Dist.skewness, quot]
  have s1 : (Dist.mk .bernoulli 1 0).skewness = .ninf := by simp [Dist.skewness, quot]
  have v0 : (Dist.mk .bernoulli 0 0).variance = .num 0 := by simp [Dist.variance]
  have v1 : (Dist.mk .bernoulli 1 0).variance = .num 0 := by simp [Dist.variance]
  have m0 : (Dist.mk .bernoulli 0 0).mean = .num 0 := rfl
  have m1 : (Dist.mk .bernoulli 1 0).mean = .num 1 := rfl
  have z : ((0 : ℝ) ^ (3 / 2 : ℝ)) = 0 := Real.zero_rpow (by norm_num)
  refine ⟨_, _, _, h0, h1, hm, hmean, hvar, ?_, ?_⟩
  · unfold Mix.skewness
    rw [hmean, hvar]
    norm_num [Mix.avg, Mix.parts, wavg, push1, isNan, s0, s1, v0, v1, m0, m1, subD, scaleD, addD, powD, mulD, pow15D, z, divD]
  · unfold Mix.kurtosis
    rw [hmean, hvar]
    norm_num [Mix.avg, Mix.parts, wavg, push1, isNan, s0, s1, v0, v1, m0, m1, subD, scaleD, addD, powD, mulD, pow15D, z, divD]

end Di
end LDT
