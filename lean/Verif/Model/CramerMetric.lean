import Verif.Model.Cramer
import Verif.Model.Psds

/-! The complete `Cramer_Distance.distance_metric` with its pictures. -/

namespace TS

/-- One panel of the figure of cramer.py:222-237: title, image (rows from the bottom), colour limits and ticks of the x axis. -/
structure CramerPanel where
  title : String
  image : Arr2 (Option ℝ)
  vmin : Option ℝ
  vmax : Option ℝ
  xticks : List ℕ

/-- What `Cramer_Distance.distance_metric` leaves behind: the two matrices, the distance and the panels drawn. -/
structure CramerResult where
  matrix1 : Arr2 (Option ℝ)
  matrix2 : Arr2 (Option ℝ)
  distance : ℝ
  panels : List CramerPanel

/-- cramer.py:222-225, 227 / 230-233, 236 `plt.imshow(matrix.T, vmin=all_min, vmax=all_max)`. -/
def cramerPanel (label : String) (lo hi : Option ℝ) (d : Arr2 (Option ℝ)) : CramerPanel :=
  ⟨label, ⟨d.m, d.n, fun i j => d.get j i⟩, lo, hi, [0, d.n]⟩

/-- cramer.py:217-220 the larger of the two maxima and the smaller of the two minima.  The matrices are complete here, the statistic
having refused missing values. -/
noncomputable def cramerLimits (d1 d2 : Arr2 (Option ℝ)) : Option ℝ × Option ℝ :=
  (minO ((nanmin d1.ravel).toList ++ (nanmin d2.ravel).toList), maxO ((nanmax d1.ravel).toList ++ (nanmax d2.ravel).toList))

/-- cramer.py:188-247 `Cramer_Distance.distance_metric`, for cubes read by cramer.py:35-42. -/
noncomputable def cramerMetric (c : Choice) (cube1 cube2 : Arr3 (Option ℝ)) (noise1 noise2 : Option ℝ) (normalize verbose : Bool)
    (label1 label2 : String) : Py CramerResult := do
  let d1 ← formatData cube1 "intensity" (some 1000) (fun _ => 0) noise1 0.2 normalize
  let d2 ← formatData cube2 "intensity" (some 1000) (fun _ => 0) noise2 0.2 normalize
  let d := matchSamples c d1 d2
  let v ← cramerStatistic d.1 d.2
  let lim := cramerLimits d.1 d.2
  return ⟨d.1, d.2, v, if verbose then [cramerPanel label1 lim.1 lim.2 d.1, cramerPanel label2 lim.1 lim.2 d.2] else []⟩

end TS
