/- Axis-length corrections of shells: los/analyze/ellipse_grid/grid.go and the interpolators of los/analyze/shell.go. -/
import Verif.Model.Shell
import Verif.Model.Cubic

namespace Shellfish.Analyze
open Shellfish.Interp

/-! The numbers of the tables are kept in units of 10⁻⁵ (all of them have at most five decimals). -/

/-- los/analyze/ellipse_grid/grid.go:3-7 (`ACRatios`), times 10⁵. -/
def acRatiosN : List Nat := [
  20690, 24138, 27586, 31034, 34483, 37931, 41379, 44828, 48276, 51724, 55172, 58621, 62069, 65517, 68966, 72414, 75862, 79310, 82759, 86207, 89655, 93103, 96552, 100000]

/-- los/analyze/ellipse_grid/grid.go:8-12 (`BCRatios`), times 10⁵. -/
def bcRatiosN : List Nat := [
  20690, 24138, 27586, 31034, 34483, 37931, 41379, 44828, 48276, 51724, 55172, 58621, 62069, 65517, 68966, 72414, 75862, 79310, 82759, 86207, 89655, 93103, 96552, 100000]

/-- los/analyze/ellipse_grid/grid.go:13-86 (`ACCorrectionGrid`), times 10⁵. -/
def acGridN : List Nat := [
  75945, 82198, 81283, 80391, 79587, 79147, 78627, 78348, 77913, 77567, 77452, 77195, 77032, 76877, 76728, 76650, 76502, 76427, 76300, 76270, 76190, 76067, 76135, 75945,
  82198, 82198, 82795, 82098, 81206, 80734, 80244, 79934, 79509, 79039, 78904, 78619, 78459, 78384, 78167, 77974, 77912, 77689, 77622, 77584, 77412, 77379, 77202, 77234,
  81283, 82795, 82795, 83655, 82855, 82381, 81813, 81319, 81016, 80708, 80321, 80036, 79803, 79639, 79466, 79313, 79154, 79026, 78981, 78831, 78723, 78726, 78568, 78524,
  80391, 82098, 83655, 83655, 84494, 83851, 83262, 82682, 82407, 82071, 81811, 81332, 81292, 81082, 80857, 80642, 80474, 80412, 80259, 80142, 80082, 80022, 79939, 79852,
  79587, 81206, 82855, 84494, 84494, 85281, 84664, 84249, 83844, 83416, 83103, 82908, 82631, 82346, 82241, 82066, 81818, 81738, 81554, 81471, 81409, 81229, 81246, 81136,
  79147, 80734, 82381, 83851, 85281, 85281, 86003, 85476, 85196, 84825, 84433, 84255, 83886, 83696, 83598, 83335, 83140, 82965, 82870, 82746, 82608, 82630, 82488, 82415,
  78627, 80244, 81813, 83262, 84664, 86003, 86003, 86800, 86560, 86099, 85769, 85437, 85282, 85007, 84818, 84529, 84410, 84290, 84217, 84020, 83957, 83785, 83720, 83695,
  78348, 79934, 81319, 82682, 84249, 85476, 86800, 86800, 87647, 87279, 86956, 86669, 86522, 86279, 86044, 85939, 85774, 85589, 85442, 85369, 85179, 85134, 85022, 84909,
  77913, 79509, 81016, 82407, 83844, 85196, 86560, 87647, 87647, 88362, 88222, 87897, 87652, 87422, 87245, 86982, 86872, 86829, 86557, 86510, 86269, 86209, 86099, 86247,
  77567, 79039, 80708, 82071, 83416, 84825, 86099, 87279, 88362, 88362, 89281, 89041, 88806, 88582, 88364, 88247, 88046, 87901, 87729, 87632, 87557, 87376, 87284, 87346,
  77452, 78904, 80321, 81811, 83103, 84433, 85769, 86956, 88222, 89281, 89281, 90101, 89883, 89771, 89417, 89388, 89108, 89038, 88931, 88788, 88651, 88583, 88383, 88458,
  77195, 78619, 80036, 81332, 82908, 84255, 85437, 86669, 87897, 89041, 90101, 90101, 90918, 90695, 90518, 90390, 90190, 90135, 89975, 89760, 89613, 89625, 89608, 89520,
  77032, 78459, 79803, 81292, 82631, 83886, 85282, 86522, 87652, 88806, 89883, 90918, 90918, 91747, 91600, 91355, 91325, 91142, 91017, 90924, 90840, 90710, 90612, 90530,
  76877, 78384, 79639, 81082, 82346, 83696, 85007, 86279, 87422, 88582, 89771, 90695, 91747, 91747, 92442, 92329, 92162, 92204, 91964, 92009, 91829, 91719, 91727, 91569,
  76728, 78167, 79466, 80857, 82241, 83598, 84818, 86044, 87245, 88364, 89417, 90518, 91600, 92442, 92442, 93236, 93186, 93037, 92994, 92899, 92806, 92701, 92596, 92579,
  76650, 77974, 79313, 80642, 82066, 83335, 84529, 85939, 86982, 88247, 89388, 90390, 91355, 92329, 93236, 93236, 94033, 93871, 93814, 93771, 93676, 93556, 93444, 93611,
  76502, 77912, 79154, 80474, 81818, 83140, 84410, 85774, 86872, 88046, 89108, 90190, 91325, 92162, 93186, 94033, 94033, 94763, 94801, 94603, 94498, 94576, 94513, 94415,
  76427, 77689, 79026, 80412, 81738, 82965, 84290, 85589, 86829, 87901, 89038, 90135, 91142, 92204, 93037, 93871, 94763, 94763, 95618, 95500, 95505, 95425, 95428, 95270,
  76300, 77622, 78981, 80259, 81554, 82870, 84217, 85442, 86557, 87729, 88931, 89975, 91017, 91964, 92994, 93814, 94801, 95618, 95618, 96285, 96262, 96245, 96180, 96267,
  76270, 77584, 78831, 80142, 81471, 82746, 84020, 85369, 86510, 87632, 88788, 89760, 90924, 92009, 92899, 93771, 94603, 95500, 96285, 96285, 97132, 97054, 97067, 97049,
  76190, 77412, 78723, 80082, 81409, 82608, 83957, 85179, 86269, 87557, 88651, 89613, 90840, 91829, 92806, 93676, 94498, 95505, 96262, 97132, 97132, 97902, 97889, 97854,
  76067, 77379, 78726, 80022, 81229, 82630, 83785, 85134, 86209, 87376, 88583, 89625, 90710, 91719, 92701, 93556, 94576, 95425, 96245, 97054, 97902, 97902, 98613, 98586,
  76135, 77202, 78568, 79939, 81246, 82488, 83720, 85022, 86099, 87284, 88383, 89608, 90612, 91727, 92596, 93444, 94513, 95428, 96180, 97067, 97889, 98613, 98613, 99285,
  75945, 77234, 78524, 79852, 81136, 82415, 83695, 84909, 86247, 87346, 88458, 89520, 90530, 91569, 92579, 93611, 94415, 95270, 96267, 97049, 97854, 98586, 99285, 99285]

/-- los/analyze/ellipse_grid/grid.go:87-160 (`BCCorrectionGrid`), times 10⁵. -/
def bcGridN : List Nat := [
  85394, 85394, 87108, 88664, 89719, 91040, 92065, 93075, 93795, 94481, 95286, 95878, 96380, 96815, 97414, 97766, 98123, 98500, 98740, 99120, 99282, 99545, 99925, 100120,
  85394, 85394, 85484, 87207, 88454, 89891, 90955, 92034, 92955, 93697, 94553, 95146, 95858, 96500, 96935, 97406, 97833, 98060, 98565, 98950, 99202, 99455, 99585, 100200,
  87108, 85484, 85484, 86050, 87455, 88942, 90028, 91130, 92091, 92992, 93714, 94354, 95088, 95792, 96442, 96963, 97426, 97860, 98392, 98690, 99052, 99562, 99700, 100130,
  88664, 87207, 86050, 86050, 86705, 88004, 89168, 90118, 91326, 92260, 93140, 93800, 94769, 95384, 95947, 96531, 97157, 97655, 98055, 98500, 98942, 99376, 99687, 100100,
  89719, 88454, 87455, 86705, 86705, 87325, 88397, 89604, 90736, 91606, 92583, 93540, 94262, 94947, 95619, 96328, 96820, 97395, 97872, 98479, 98820, 99243, 99710, 100250,
  91040, 89891, 88942, 88004, 87325, 87325, 87862, 88949, 90067, 91056, 92060, 93105, 93795, 94674, 95312, 95955, 96593, 97120, 97677, 98239, 98750, 99225, 99615, 100150,
  92065, 90955, 90028, 89168, 88397, 87862, 87862, 88444, 89717, 90742, 91598, 92565, 93510, 94374, 95019, 95696, 96365, 97018, 97622, 98060, 98610, 99028, 99528, 100200,
  93075, 92034, 91130, 90118, 89604, 88949, 88444, 88444, 89175, 90252, 91333, 92250, 93138, 93955, 94832, 95561, 96198, 96910, 97502, 98080, 98572, 99150, 99630, 100100,
  93795, 92955, 92091, 91326, 90736, 90067, 89717, 89175, 89175, 89867, 90971, 91880, 92810, 93639, 94394, 95238, 95983, 96765, 97300, 97929, 98409, 98918, 99505, 100280,
  94481, 93697, 92992, 92260, 91606, 91056, 90742, 90252, 89867, 89867, 90650, 91620, 92527, 93469, 94274, 95106, 95800, 96545, 97190, 97774, 98467, 98905, 99523, 100150,
  95286, 94553, 93714, 93140, 92583, 92060, 91598, 91333, 90971, 90650, 90650, 91368, 92274, 93232, 94111, 94943, 95590, 96445, 97155, 97657, 98272, 98896, 99268, 100100,
  95878, 95146, 94354, 93800, 93540, 93105, 92565, 92250, 91880, 91620, 91368, 91368, 92060, 92964, 93906, 94801, 95448, 96295, 96977, 97550, 98125, 98886, 99413, 100000,
  96380, 95858, 95088, 94769, 94262, 93795, 93510, 93138, 92810, 92527, 92274, 92060, 92060, 92799, 93652, 94576, 95465, 96165, 96917, 97607, 98272, 98818, 99378, 100020,
  96815, 96500, 95792, 95384, 94947, 94674, 94374, 93955, 93639, 93469, 93232, 92964, 92799, 92799, 93494, 94346, 95186, 96065, 96780, 97490, 98159, 98696, 99475, 100100,
  97414, 96935, 96442, 95947, 95619, 95312, 95019, 94832, 94394, 94274, 94111, 93906, 93652, 93494, 93494, 94244, 95078, 95953, 96740, 97335, 98185, 98778, 99413, 100030,
  97766, 97406, 96963, 96531, 96328, 95955, 95696, 95561, 95238, 95106, 94943, 94801, 94576, 94346, 94244, 94244, 95010, 95850, 96510, 97399, 98092, 98656, 99368, 100100,
  98123, 97833, 97426, 97157, 96820, 96593, 96365, 96198, 95983, 95800, 95590, 95448, 95465, 95186, 95078, 95010, 95010, 95738, 96582, 97167, 97990, 98688, 99265, 100100,
  98500, 98060, 97860, 97655, 97395, 97120, 97018, 96910, 96765, 96545, 96445, 96295, 96165, 96065, 95953, 95850, 95738, 95738, 96530, 97224, 97977, 98756, 99368, 100150,
  98740, 98565, 98392, 98055, 97872, 97677, 97622, 97502, 97300, 97190, 97155, 96977, 96917, 96780, 96740, 96510, 96582, 96530, 96530, 97147, 97977, 98691, 99363, 100200,
  99120, 98950, 98690, 98500, 98479, 98239, 98060, 98080, 97929, 97774, 97657, 97550, 97607, 97490, 97335, 97399, 97167, 97224, 97147, 97147, 97900, 98626, 99410, 100100,
  99282, 99202, 99052, 98942, 98820, 98750, 98610, 98572, 98409, 98467, 98272, 98125, 98272, 98159, 98185, 98092, 97990, 97977, 97977, 97900, 97900, 98653, 99383, 100100,
  99545, 99455, 99562, 99376, 99243, 99225, 99028, 99150, 98918, 98905, 98896, 98886, 98818, 98696, 98778, 98656, 98688, 98756, 98691, 98626, 98653, 98653, 99255, 100100,
  99925, 99585, 99700, 99687, 99710, 99615, 99528, 99630, 99505, 99523, 99268, 99413, 99378, 99475, 99413, 99368, 99265, 99368, 99363, 99410, 99383, 99255, 99255, 100100,
  100120, 100200, 100130, 100100, 100250, 100150, 100200, 100100, 100280, 100150, 100100, 100000, 100020, 100100, 100030, 100100, 100100, 100150, 100200, 100100, 100100, 100100, 100100, 100100]

/-- los/analyze/ellipse_grid/grid.go:161-234 (`CCorrectionGrid`), times 10⁵. -/
def cGridN : List Nat := [
  111530, 110650, 109850, 109000, 108250, 107550, 106850, 106200, 105500, 105000, 104500, 104000, 103600, 103150, 102700, 102300, 101950, 101650, 101280, 101000, 100730, 100450, 100250, 100250,
  111480, 110850, 109930, 109070, 108350, 107670, 107030, 106330, 105830, 105250, 104820, 104220, 103800, 103280, 102930, 102620, 102170, 101820, 101580, 101250, 100950, 100700, 100700, 100250,
  111630, 110800, 109900, 109150, 108500, 107700, 107120, 106400, 105950, 105400, 104820, 104350, 103900, 103550, 103130, 102800, 102370, 102050, 101770, 101500, 101200, 101200, 100700, 100450,
  111630, 110830, 110030, 109300, 108500, 107850, 107150, 106550, 106080, 105450, 105000, 104630, 104030, 103680, 103250, 102970, 102670, 102280, 102030, 101680, 101680, 101200, 100950, 100730,
  111630, 110800, 110050, 109400, 108570, 107950, 107330, 106600, 106130, 105650, 105170, 104800, 104200, 103800, 103480, 103100, 102900, 102500, 102250, 102250, 101680, 101500, 101250, 101000,
  111730, 110900, 110100, 109400, 108750, 108070, 107380, 106830, 106330, 105770, 105250, 104850, 104430, 104100, 103680, 103420, 103020, 102750, 102750, 102250, 102030, 101770, 101580, 101280,
  111700, 111000, 110250, 109450, 108820, 108200, 107550, 106900, 106350, 105900, 105450, 105000, 104650, 104250, 103950, 103650, 103370, 103370, 102750, 102500, 102280, 102050, 101820, 101650,
  111780, 110950, 110300, 109570, 108950, 108300, 107700, 107050, 106630, 106100, 105700, 105300, 104780, 104580, 104200, 103870, 103870, 103370, 103020, 102900, 102670, 102370, 102170, 101950,
  111770, 111050, 110330, 109700, 109000, 108450, 107900, 107200, 106830, 106300, 105850, 105500, 105150, 104850, 104480, 104480, 103870, 103650, 103420, 103100, 102970, 102800, 102620, 102300,
  111830, 111080, 110450, 109800, 109120, 108500, 108000, 107450, 107050, 106550, 106130, 105750, 105400, 105130, 105130, 104480, 104200, 103950, 103680, 103480, 103250, 103130, 102930, 102700,
  111950, 111100, 110580, 109850, 109300, 108700, 108150, 107650, 107200, 106800, 106350, 106050, 105650, 105650, 105130, 104850, 104580, 104250, 104100, 103800, 103680, 103550, 103280, 103150,
  111980, 111280, 110730, 109970, 109420, 108900, 108280, 107850, 107430, 107050, 106670, 106270, 106270, 105650, 105400, 105150, 104780, 104650, 104430, 104200, 104030, 103900, 103800, 103600,
  112080, 111400, 110800, 110300, 109500, 108950, 108550, 108100, 107700, 107300, 106900, 106900, 106270, 106050, 105750, 105500, 105300, 105000, 104850, 104800, 104630, 104350, 104220, 104000,
  112100, 111430, 110880, 110220, 109770, 109300, 108830, 108330, 107900, 107570, 107570, 106900, 106670, 106350, 106130, 105850, 105700, 105450, 105250, 105170, 105000, 104820, 104820, 104500,
  112270, 111650, 110950, 110400, 110000, 109500, 109000, 108650, 108300, 108300, 107570, 107300, 107050, 106800, 106550, 106300, 106100, 105900, 105770, 105650, 105450, 105400, 105250, 105000,
  112300, 111650, 111130, 110650, 110100, 109750, 109180, 108900, 108900, 108300, 107900, 107700, 107430, 107200, 107050, 106830, 106630, 106350, 106330, 106130, 106080, 105950, 105830, 105500,
  112300, 111750, 111280, 111000, 110400, 110050, 109630, 109630, 108900, 108650, 108330, 108100, 107850, 107650, 107450, 107200, 107050, 106900, 106830, 106600, 106550, 106400, 106330, 106200,
  112500, 111980, 111500, 111050, 110650, 110270, 110270, 109630, 109180, 109000, 108830, 108550, 108280, 108150, 108000, 107900, 107700, 107550, 107380, 107330, 107150, 107120, 107030, 106850,
  112580, 112150, 111650, 111250, 110870, 110870, 110270, 110050, 109750, 109500, 109300, 108950, 108900, 108700, 108500, 108450, 108300, 108200, 108070, 107950, 107850, 107700, 107670, 107550,
  112850, 112500, 112030, 111520, 111520, 110870, 110650, 110400, 110100, 110000, 109770, 109500, 109420, 109300, 109120, 109000, 108950, 108820, 108750, 108570, 108500, 108500, 108350, 108250,
  112830, 112500, 112250, 112250, 111520, 111250, 111050, 111000, 110650, 110400, 110220, 110300, 109970, 109850, 109800, 109700, 109570, 109450, 109400, 109400, 109300, 109150, 109070, 109000,
  113000, 112930, 112930, 112250, 112030, 111650, 111500, 111280, 111130, 110950, 110880, 110800, 110730, 110580, 110450, 110330, 110300, 110250, 110100, 110050, 110030, 109900, 109930, 109850,
  113330, 113330, 112930, 112500, 112500, 112150, 111980, 111750, 111650, 111650, 111430, 111400, 111280, 111100, 111080, 111050, 110950, 111000, 110900, 110800, 110830, 110800, 110850, 110650,
  113330, 113330, 113000, 112830, 112850, 112580, 112500, 112300, 112300, 112270, 112100, 112080, 111980, 111950, 111830, 111770, 111780, 111700, 111730, 111630, 111630, 111630, 111480, 111530]

noncomputable section

/-- los/analyze/ellipse_grid/grid.go: the table of the numbers. -/
def table (l : List Nat) : List ℝ := l.map fun n : Nat => (n : ℝ) / 100000

/-- los/analyze/shell.go:357-359 (`axisInterpolators`). -/
structure AxisInterpolators where
  acRatio : BiCubic ℝ
  bcRatio : BiCubic ℝ
  cRatio : BiCubic ℝ

/-- los/analyze/shell.go:361-374 (`init`); `none` is a panic before the program starts. -/
def axisInit : Option AxisInterpolators := do
  let acRatio ← newBiCubic (table acRatiosN) (table bcRatiosN) (table acGridN)
  let bcRatio ← newBiCubic (table acRatiosN) (table bcRatiosN) (table bcGridN)
  let cRatio ← newBiCubic (table acRatiosN) (table bcRatiosN) (table cGridN)
  some ⟨acRatio, bcRatio, cRatio⟩

/-- los/analyze/shell.go:173-175: the three evaluations. -/
def AxisInterpolators.ratios (ai : AxisInterpolators) : Ratios :=
  ⟨fun x y => (ai.acRatio.eval x y).1, fun x y => (ai.bcRatio.eval x y).1, fun x y => (ai.cRatio.eval x y).1⟩

/-- los/analyze/shell.go:173-175: the interpolators after the three evaluations. -/
def AxisInterpolators.next (ai : AxisInterpolators) (x y : ℝ) : AxisInterpolators := ⟨(ai.acRatio.eval x y).2, (ai.bcRatio.eval x y).2, (ai.cRatio.eval x y).2⟩

/-- los/analyze/shell.go:168-169: the ratios that `Axes` looks up, for the eigenvalues `vals`. -/
def lookedUp (vals : Fin 3 → ℝ) : ℝ × ℝ :=
  let ax2 := 3 * (vals 1 + vals 2 - vals 0) / 2
  let ay2 := 3 * vals 1 - ax2
  let az2 := 3 * vals 2 - ax2
  let t := trisort (Real.sqrt ax2) (Real.sqrt ay2) (Real.sqrt az2)
  (t.2.2.1 / t.1, t.2.1 / t.1)

/-- los/analyze/shell.go:160-187 for a sequence of calls of `Axes` by one thread; a panic ends the program. -/
def AxisInterpolators.axesAll (ai : AxisInterpolators) : List ((Fin 3 → ℝ) × (Fin 3 → Fin 3 → ℝ)) → Option (List (ℝ × ℝ × ℝ × (Fin 3 → ℝ)))
  | [] => some []
  | e :: es =>
    match axesOf ai.ratios e.1 e.2 with
    | none => none
    | some r => ((ai.next (lookedUp e.1).1 (lookedUp e.1).2).axesAll es).map (r :: ·)

end
end Shellfish.Analyze
