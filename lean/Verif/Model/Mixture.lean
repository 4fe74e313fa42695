import Verif.Model.Distribution
/-!
# Mixtures: `src/ldt_statistics/distributions/mixture.cpp`

The components are distributions of `distributions_uni.cpp`; weights are real numbers. A mixture keeps references to the caller's vectors;
they are values here, so later changes by the caller are not modelled.
-/
namespace LDT
namespace Di
open Op

/-- Multiplication. -/
noncomputable def mulD : Dbl ℝ → Dbl ℝ → Dbl ℝ
  | .num a, x => scaleD a x
  | x, .num a => scaleD a x
  | .nan, _ => .nan
  | _, .nan => .nan
  | .pinf, .pinf => .pinf
  | .ninf, .ninf => .pinf
  | .pinf, .ninf => .ninf
  | .ninf, .pinf => .ninf

/-- `std::pow(x, n)` for a positive integer `n`. -/
noncomputable def powD (n : Nat) : Dbl ℝ → Dbl ℝ
  | .num a => .num (a ^ n)
  | .pinf => .pinf
  | .ninf => if n % 2 = 0 then .pinf else .ninf
  | .nan => .nan

/-- `std::pow(x, 1.5)`. -/
noncomputable def pow15D : Dbl ℝ → Dbl ℝ
  | .num a => if 0 ≤ a then .num (a ^ (3 / 2 : ℝ)) else .nan
  | .pinf => .pinf
  | .ninf => .pinf
  | .nan => .nan

/-- Division. -/
noncomputable def divD : Dbl ℝ → Dbl ℝ → Dbl ℝ
  | .num a, .num b => quot a b
  | .nan, _ => .nan
  | _, .nan => .nan
  | .num _, _ => .num 0
  | .pinf, .num b => if 0 ≤ b then .pinf else .ninf
  | .ninf, .num b => if 0 ≤ b then .ninf else .pinf
  | _, _ => .nan

/-- Subtraction. -/
noncomputable def subD (a b : Dbl ℝ) : Dbl ℝ := addD a (scaleD (-1) b)

/-- `std::isnan`. -/
def isNan : Dbl ℝ → Bool
  | .nan => true
  | _ => false

/-- `RunningMoments<1, true, true, Tv>::PushNew`, include/math/statistics/running.h:77-92 with include/array.h:563-594: the sum of the
weights and the mean. -/
noncomputable def push1 (s : ℝ × Dbl ℝ) (x : Dbl ℝ) (w : ℝ) : ℝ × Dbl ℝ :=
  if isNan x then s
  else (s.1 + w, divD (addD (scaleD s.1 s.2) (scaleD w x)) (.num (s.1 + w)))

/-- `RunningMoments<1, true, true, Tv>::GetMean` after pushing all values, include/math/statistics/running.h:39. -/
noncomputable def wavg (l : List (ℝ × Dbl ℝ)) : Dbl ℝ :=
  let s := l.foldl (fun s p => push1 s p.2 p.1) (0, .num 0)
  if s.1 = 0 then .nan else s.2

/-- `DistributionMixture`, include/math/statistics/distributions.h:393-398. -/
structure Mix where
  ws : List ℝ
  ds : List Dist

/-- `DistributionMixtureType`, include/math/statistics/distributions.h:378-388. -/
inductive MixType where
  | discrete | continuous | both
  deriving DecidableEq

/-- `gettype(dists)`, mixture.cpp:13-38. -/
def mixType (ds : List Dist) : MixType :=
  if ds.all (fun d => d.isDiscrete) then .discrete
  else if ds.all (fun d => !d.isDiscrete) then .continuous
  else .both

/-- The constructor, mixture.cpp:40-56. -/
noncomputable def makeMix (ws : List ℝ) (ds : List Dist) : Outcome Mix :=
  if ws.length ≠ ds.length then .throws
  else if ∃ w ∈ ws, w ≤ 0 then .throws
  else if ws.length = 0 then .throws
  else .ok ⟨ws, ds⟩

/-- The loops over weights and distributions, mixture.cpp:105-109. -/
def Mix.parts (m : Mix) : List (ℝ × Dist) := m.ws.zip m.ds

/-- The running mean of a property of the components, mixture.cpp:103-110. -/
noncomputable def Mix.avg (m : Mix) (f : Dist → Dbl ℝ) : Dbl ℝ := wavg (m.parts.map fun p => (p.1, f p.2))

/-- `GetMinimum()`, mixture.cpp:58-67. -/
noncomputable def Mix.minimum (m : Mix) : Dbl ℝ := m.ds.foldl (fun a d => if d.minimum.lt a then d.minimum else a) .pinf

/-- `GetMaximum()`, mixture.cpp:69-78. -/
noncomputable def Mix.maximum (m : Mix) : Dbl ℝ := m.ds.foldl (fun a d => if a.lt d.maximum then d.maximum else a) .ninf

/-- The mean, mixture.cpp:103-110. -/
noncomputable def Mix.mean (m : Mix) : Dbl ℝ := m.avg fun d => d.mean

/-- The variance, mixture.cpp:112-119. -/
noncomputable def Mix.variance (m : Mix) : Dbl ℝ :=
  subD (m.avg fun d => addD (powD 2 d.mean) d.variance) (mulD m.mean m.mean)

/-- The skewness, mixture.cpp:121-132. -/
noncomputable def Mix.skewness (m : Mix) : Dbl ℝ :=
  divD (m.avg fun d =>
      let mdiff := subD d.mean m.mean
      addD (addD (powD 3 mdiff) (mulD (scaleD 3 mdiff) d.variance)) (mulD d.skewness (pow15D d.variance)))
    (pow15D m.variance)

/-- The kurtosis, mixture.cpp:134-145. -/
noncomputable def Mix.kurtosis (m : Mix) : Dbl ℝ :=
  subD (divD (m.avg fun d =>
      let mdiff := subD d.mean m.mean
      addD (addD (addD (powD 4 mdiff) (mulD (scaleD 6 (powD 2 mdiff)) d.variance))
          (mulD (mulD (scaleD 4 mdiff) d.skewness) (pow15D d.variance)))
        (mulD (addD d.kurtosis (.num 3)) (powD 2 d.variance)))
    (powD 2 m.variance)) (.num 3)

/-- `GetMoments(mean, variance)`, mixture.cpp:208-237. -/
noncomputable def Mix.moments2 (m : Mix) : Dbl ℝ × Dbl ℝ := (m.mean, m.variance)

/-- `GetMoments(mean, variance, skewness, kurtosis)`, mixture.cpp:80-146. -/
noncomputable def Mix.moments4 (m : Mix) : Dbl ℝ × Dbl ℝ × Dbl ℝ × Dbl ℝ := (m.mean, m.variance, m.skewness, m.kurtosis)

/-- `GetMomentsNormal(mean, variance, skewness, kurtosis)`, mixture.cpp:148-206. -/
noncomputable def Mix.momentsNormal (m : Mix) : Dbl ℝ × Dbl ℝ × Dbl ℝ × Dbl ℝ :=
  (m.mean, m.variance,
    divD (m.avg fun d =>
      let mdiff := subD d.mean m.mean
      mulD (addD (powD 2 mdiff) (scaleD 3 d.variance)) mdiff) (pow15D m.variance),
    subD (divD (m.avg fun d =>
      let mdiff := subD d.mean m.mean
      addD (addD (powD 4 mdiff) (mulD (scaleD 6 (powD 2 mdiff)) d.variance)) (scaleD 3 (powD 2 d.variance))) (powD 2 m.variance)) (.num 3))

/-- `GetCdf(x)`, mixture.cpp:239-249. -/
noncomputable def Mix.cdf (S : Fns) (m : Mix) (x : ℝ) : Dbl ℝ := m.avg fun d => d.cdf S x

/-- `GetPdfOrPmf(x)`, mixture.cpp:308-326. -/
noncomputable def Mix.pdf (m : Mix) (x : ℝ) : Outcome (Dbl ℝ) :=
  if mixType m.ds = .both then .throws
  else .ok (m.avg fun d => d.pdf x)

/-- `GetPdfOrPmfLog(x)`, mixture.cpp:328-330. -/
noncomputable def Mix.logPdf (m : Mix) (x : ℝ) : Outcome (Dbl ℝ) := m.pdf x >>= fun v => .ok (logOf v)

/-- `std::numeric_limits<double>::max()`. -/
noncomputable def dblMax : ℝ := (2 - 2 ^ (-52 : ℤ)) * 2 ^ (1023 : ℤ)

/-- `std::numeric_limits<double>::min()`: the smallest positive normal number. -/
noncomputable def dblMin : ℝ := 2 ^ (-1022 : ℤ)

/-- `std::fmin`. -/
noncomputable def fminD (a b : Dbl ℝ) : Dbl ℝ := if isNan a then b else if b.lt a then b else a

/-- `std::fmax`. -/
noncomputable def fmaxD (a b : Dbl ℝ) : Dbl ℝ := if isNan a then b else if a.lt b then b else a

/-- The bounds set by `GetPmfSupportSize(min, max)`, mixture.cpp:260-270. -/
noncomputable def Mix.bounds (m : Mix) (lo hi : ℝ) : Dbl ℝ × Dbl ℝ :=
  (fmaxD (.num lo) (m.ds.foldl (fun a d => fminD a d.minimum) (.num dblMax)),
   fminD (.num hi) (m.ds.foldl (fun a d => fmaxD a d.maximum) (.num dblMin)))

/-- `GetPmfSupportSize(min, max)`, mixture.cpp:251-273, for finite arguments. Conversion of a value that is not finite is undefined;
differences that do not fit the integer type are not modelled. -/
noncomputable def Mix.supportSize (m : Mix) (lo hi : ℝ) : Outcome Int :=
  match subD (m.bounds lo hi).2 (m.bounds lo hi).1 with
  | .num x => .ok (trunc x + 1)
  | _ => .ub

/-- One value of `GetPmfSupport`, mixture.cpp:297 and :304. -/
noncomputable def Mix.value (m : Mix) (log : Bool) (x : ℝ) : Outcome (Dbl ℝ) := if log then m.logPdf x else m.pdf x

/-- `GetPmfSupport(x, Value, log, length, for_continuous_plot, min, max)`, mixture.cpp:275-306: the points and their values. The two arrays
have room for `length` numbers. -/
noncomputable def Mix.support (m : Mix) (log : Bool) (length : Nat) (plot : Bool) (lo hi : ℝ) : Outcome (List (ℝ × Dbl ℝ)) :=
  if length = 0 then .throws
  else if mixType m.ds ≠ .discrete then .throws
  else
    match (m.bounds lo hi).1 with
    | .num a =>
      if plot then ((List.range (length / 3)).mapM fun i : Nat => m.value log (a + i) >>= fun v =>
          Outcome.ok [(a + (i : ℝ), Dbl.num 0), (a + i, v), (a + i, .num 0)]) >>= fun l => .ok l.flatten
      else (List.range length).mapM fun i : Nat => m.value log (a + i) >>= fun v => Outcome.ok (a + (i : ℝ), v)
    | _ => .ub

/-- The choice of a component in `GetSample`, mixture.cpp:347-372, by a number `un` drawn from `[0, sum of the weights)`. -/
noncomputable def Mix.pick (m : Mix) (un : ℝ) : Nat :=
  let sums := (m.ws.scanl (· + ·) 0).tail
  let j := sums.findIdx fun a => decide (un < a)
  if j < m.ds.length then j else j - m.ds.length

end Di
end LDT
