import Verif.Model.Degradation

/-! # Errors and confidence limits of the regressions (`rdtools/degradation.py`) -/

namespace Verif

/-- What a regression reports (rdtools/degradation.py:56-77, 152-173): the rate, slope, intercept, and
the *squares* of `rmse`, `slope_stderr` and `intercept_stderr` (square roots are not rational), with
the covariance of intercept and slope from `results.cov_params()`. -/
structure RegressionInfo where
  rd : Flt
  slope : ℚ
  intercept : ℚ
  mse : ℚ
  varSlope : ℚ
  varIntercept : ℚ
  cov : ℚ
  deriving DecidableEq, Repr

/-- The results of `sm.OLS(...).fit()` as the library reads them (rdtools/degradation.py:48-68 and
144-164): `mse_resid` is the sum of squared residuals over `n - 2`, `cov_params` is `mse_resid` times
the inverse of the matrix of the normal equations and `bse` the roots of its diagonal. Fewer than three
samples (no degree of freedom left) or a single abscissa are not modelled (`none`). -/
def regressionInfo (pts : List (ℚ × ℚ)) : Option RegressionInfo :=
  if pts.length ≤ 2 then none else
  (olsFit pts).map fun bm =>
    let n : ℚ := pts.length
    let sx := (pts.map fun p => p.1).sum
    let sxx := (pts.map fun p => p.1 * p.1).sum
    let det := n * sxx - sx * sx
    let mse := (pts.map fun p => (p.2 - (bm.1 + bm.2 * p.1)) ^ 2).sum / (n - 2)
    { rd := Flt.ofDiv (100 * bm.2) bm.1
      slope := bm.2
      intercept := bm.1
      mse := mse
      varSlope := mse * (n / det)
      varIntercept := mse * (sxx / det)
      cov := mse * (-sx / det) }

/-- The matrix `sqrt(s)[:, None] * v` by which numpy multiplies standard normal draws, from the singular
value decomposition of the covariance matrix; used at rdtools/degradation.py:445-447 -/
structure DrawMatrix where
  a11 : ℚ
  a12 : ℚ
  a21 : ℚ
  a22 : ℚ
  deriving DecidableEq, Repr

/-- `np.random.multivariate_normal(results.params, results.cov_params(), N)`
(rdtools/degradation.py:445-447): intercept and slope drawn together. `zs` are the standard normal
draws, `r` the matrix made of the covariance. -/
def drawParams (i : RegressionInfo) (r : DrawMatrix) (zs : List (ℚ × ℚ)) : List (ℚ × ℚ) :=
  zs.map fun z => (i.intercept + (z.1 * r.a11 + z.2 * r.a21), i.slope + (z.1 * r.a12 + z.2 * r.a22))

/-- `degradation_ols` with everything it returns (rdtools/degradation.py:11-79): the report and the
confidence interval. `root` stands for the decomposition of the covariance, `zs` for the draws. -/
def degradationOlsFull (root : RegressionInfo → DrawMatrix) (zs : List (ℚ × ℚ)) (conf : ℚ) (s : Series) :
    Except PyErr (Option (RegressionInfo × ℚ × ℚ)) :=
  if s = [] then .error .indexError else
  match regressionInfo (olsRows s) with
  | none => .ok none
  | some i => (degradationCI (drawParams i (root i) zs) conf).map fun ci => some (i, ci)

/-- `degradation_classical_decomposition` with everything it returns (rdtools/degradation.py:82-177):
the report and confidence interval, the moving average, the Mann-Kendall trend of the moving average.
`crit` is the critical value `norm.ppf(0.975)`. -/
def degradationClassicalFull (root : RegressionInfo → DrawMatrix) (zs : List (ℚ × ℚ)) (conf crit : ℚ)
    (freqDefined : Bool) (s : Series) :
    Except PyErr (Option (RegressionInfo × ℚ × ℚ) × List Cell × Trend) :=
  if (s.any fun r => r.2.isNone) || !freqDefined then .error .valueError else   -- 119-123
  if s = [] then .error .indexError else                                -- 126
  let ma := centeredYearMean s                                          -- 132-137
  let trend := mkTrend crit (valids ma)                                 -- 161
  match regressionInfo (olsRows ((s.map Prod.fst).zip ma)) with
  | none => .ok (none, ma, trend)
  | some i =>
    (degradationCI (drawParams i (root i) zs) conf).map fun ci => (some (i, ci), ma, trend)

end Verif
