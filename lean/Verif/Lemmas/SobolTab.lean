import Verif.Lemmas.SobolNet

/-
The rank conditions for the direction numbers of math/rand/sobol.go, evaluated by the kernel on literals.
-/
namespace Shellfish.Sobol

/-- direction numbers of dimensions 0, 1, 2, last first -/
def tab012 : List (Nat × Nat × Nat) := [
  (858993459, 1023421741, 805423893),
  (572662306, 436222522, 537101866),
  (1010580540, 738202604, 153590812),
  (673720360, 939532728, 306915384),
  (808464432, 268451088, 749883440),
  (538976288, 536877600, 408985632),
  (1069563840, 1073730496, 968970816),
  (713042560, 429498752, 847422592),
  (855651072, 757939456, 620874496),
  (570434048, 976886272, 168003072),
  (1006648320, 334244864, 354917376),
  (671098880, 565721088, 709568512),
  (805318656, 1024462848, 481447936),
  (536879104, 438312960, 945856512),
  (1073725440, 742375424, 820363264),
  (715816960, 941195264, 550207488),
  (858980352, 271384576, 162725888),
  (572653568, 540672000, 308412416),
  (1010565120, 1072431104, 753139712),
  (673710080, 431489024, 415760384),
  (808452096, 756023296, 967835648),
  (538968064, 975175680, 845152256),
  (1069547520, 331350016, 633339904),
  (713031680, 562036736, 176160768),
  (855638016, 1023410176, 352321536),
  (570425344, 436207616, 704643072),
  (1006632960, 738197504, 469762048),
  (671088640, 939524096, 939524096),
  (805306368, 268435456, 805306368),
  (536870912, 536870912, 536870912)]

set_option maxRecDepth 20000 in
theorem tab012_eq : tabOf (0, 1, 2) = tab012 := by
  unfold tabOf dir
  decide +kernel

set_option maxRecDepth 20000 in
theorem net012_two : chkAll true 1 tab012 = true := by
  decide +kernel

set_option maxRecDepth 20000 in
theorem net012_three : chkAll false 3 tab012 = true := by
  decide +kernel

/-- direction numbers of dimensions 0, 2, 2, last first -/
def tab022 : List (Nat × Nat × Nat) := [
  (858993459, 805423893, 805423893),
  (572662306, 537101866, 537101866),
  (1010580540, 153590812, 153590812),
  (673720360, 306915384, 306915384),
  (808464432, 749883440, 749883440),
  (538976288, 408985632, 408985632),
  (1069563840, 968970816, 968970816),
  (713042560, 847422592, 847422592),
  (855651072, 620874496, 620874496),
  (570434048, 168003072, 168003072),
  (1006648320, 354917376, 354917376),
  (671098880, 709568512, 709568512),
  (805318656, 481447936, 481447936),
  (536879104, 945856512, 945856512),
  (1073725440, 820363264, 820363264),
  (715816960, 550207488, 550207488),
  (858980352, 162725888, 162725888),
  (572653568, 308412416, 308412416),
  (1010565120, 753139712, 753139712),
  (673710080, 415760384, 415760384),
  (808452096, 967835648, 967835648),
  (538968064, 845152256, 845152256),
  (1069547520, 633339904, 633339904),
  (713031680, 176160768, 176160768),
  (855638016, 352321536, 352321536),
  (570425344, 704643072, 704643072),
  (1006632960, 469762048, 469762048),
  (671088640, 939524096, 939524096),
  (805306368, 805306368, 805306368),
  (536870912, 536870912, 536870912)]

set_option maxRecDepth 20000 in
theorem tab022_eq : tabOf (0, 2, 2) = tab022 := by
  unfold tabOf dir
  decide +kernel

set_option maxRecDepth 20000 in
theorem net022_two : chkAll true 2 tab022 = true := by
  decide +kernel

/-- direction numbers of dimensions 0, 3, 3, last first -/
def tab033 : List (Nat × Nat × Nat) := [
  (858993459, 805552913, 805552913),
  (572662306, 536972810, 536972810),
  (1010580540, 766893116, 766893116),
  (673720360, 306915352, 306915352),
  (808464432, 204607536, 204607536),
  (538976288, 954376224, 954376224),
  (1069563840, 499194688, 499194688),
  (713042560, 847291520, 847291520),
  (855651072, 553894656, 553894656),
  (570434048, 704744960, 704744960),
  (1006648320, 297131008, 297131008),
  (671098880, 172697600, 172697600),
  (805318656, 1009913856, 1009913856),
  (536879104, 417505280, 417505280),
  (1073725440, 813154304, 813154304),
  (715816960, 550076416, 550076416),
  (858980352, 758317056, 758317056),
  (572653568, 316801024, 316801024),
  (1010565120, 208928768, 208928768),
  (673710080, 952631296, 952631296),
  (808452096, 489684992, 489684992),
  (538968064, 853540864, 853540864),
  (1069547520, 566231040, 566231040),
  (713031680, 713031680, 713031680),
  (855638016, 285212672, 285212672),
  (570425344, 167772160, 167772160),
  (1006632960, 1006632960, 1006632960),
  (671088640, 402653184, 402653184),
  (805306368, 805306368, 805306368),
  (536870912, 536870912, 536870912)]

set_option maxRecDepth 20000 in
theorem tab033_eq : tabOf (0, 3, 3) = tab033 := by
  unfold tabOf dir
  decide +kernel

set_option maxRecDepth 20000 in
theorem net033_two : chkAll true 2 tab033 = true := by
  decide +kernel

/-- direction numbers of dimensions 0, 4, 4, last first -/
def tab044 : List (Nat × Nat × Nat) := [
  (858993459, 785392691, 785392691),
  (572662306, 144717838, 144717838),
  (1010580540, 858705956, 858705956),
  (673720360, 235446328, 235446328),
  (808464432, 607334096, 607334096),
  (538976288, 940443808, 940443808),
  (1069563840, 1053482432, 1053482432),
  (713042560, 682657408, 682657408),
  (855651072, 501421824, 501421824),
  (570434048, 112080384, 112080384),
  (1006648320, 386593792, 386593792),
  (671098880, 909154304, 909154304),
  (805318656, 451088384, 451088384),
  (536879104, 279846912, 279846912),
  (1073725440, 587907072, 587907072),
  (715816960, 774930432, 774930432),
  (858980352, 182648832, 182648832),
  (572653568, 816709632, 816709632),
  (1010565120, 233046016, 233046016),
  (673710080, 649592832, 649592832),
  (808452096, 969932800, 969932800),
  (538968064, 1050673152, 1050673152),
  (1069547520, 700448768, 700448768),
  (713031680, 511705088, 511705088),
  (855638016, 117440512, 117440512),
  (570425344, 369098752, 369098752),
  (1006632960, 872415232, 872415232),
  (671088640, 402653184, 402653184),
  (805306368, 268435456, 268435456),
  (536870912, 536870912, 536870912)]

set_option maxRecDepth 20000 in
theorem tab044_eq : tabOf (0, 4, 4) = tab044 := by
  unfold tabOf dir
  decide +kernel

set_option maxRecDepth 20000 in
theorem net044_two : chkAll true 2 tab044 = true := by
  decide +kernel

/-- direction numbers of dimensions 0, 5, 5, last first -/
def tab055 : List (Nat × Nat × Nat) := [
  (858993459, 214971443, 214971443),
  (572662306, 1000343598, 1000343598),
  (1010580540, 856477748, 856477748),
  (673720360, 775659528, 775659528),
  (808464432, 875760848, 875760848),
  (538976288, 137247648, 137247648),
  (1069563840, 486080448, 486080448),
  (713042560, 464754048, 464754048),
  (855651072, 1071843072, 1071843072),
  (570434048, 361637376, 361637376),
  (1006648320, 121168896, 121168896),
  (671098880, 640919552, 640919552),
  (805318656, 685969408, 685969408),
  (536879104, 328081408, 328081408),
  (1073725440, 590921728, 590921728),
  (715816960, 238256128, 238256128),
  (858980352, 954400768, 954400768),
  (572653568, 864944128, 864944128),
  (1010565120, 804519936, 804519936),
  (673710080, 898105344, 898105344),
  (808452096, 198180864, 198180864),
  (538968064, 497025024, 497025024),
  (1069547520, 465567744, 465567744),
  (713031680, 1031798784, 1031798784),
  (855638016, 385875968, 385875968),
  (570425344, 100663296, 100663296),
  (1006632960, 603979776, 603979776),
  (671088640, 671088640, 671088640),
  (805306368, 268435456, 268435456),
  (536870912, 536870912, 536870912)]

set_option maxRecDepth 20000 in
theorem tab055_eq : tabOf (0, 5, 5) = tab055 := by
  unfold tabOf dir
  decide +kernel

set_option maxRecDepth 20000 in
theorem net055_two : chkAll true 2 tab055 = true := by
  decide +kernel

/-- direction numbers of dimensions 0, 1, 1, last first -/
def tab011 : List (Nat × Nat × Nat) := [
  (858993459, 1023421741, 1023421741),
  (572662306, 436222522, 436222522),
  (1010580540, 738202604, 738202604),
  (673720360, 939532728, 939532728),
  (808464432, 268451088, 268451088),
  (538976288, 536877600, 536877600),
  (1069563840, 1073730496, 1073730496),
  (713042560, 429498752, 429498752),
  (855651072, 757939456, 757939456),
  (570434048, 976886272, 976886272),
  (1006648320, 334244864, 334244864),
  (671098880, 565721088, 565721088),
  (805318656, 1024462848, 1024462848),
  (536879104, 438312960, 438312960),
  (1073725440, 742375424, 742375424),
  (715816960, 941195264, 941195264),
  (858980352, 271384576, 271384576),
  (572653568, 540672000, 540672000),
  (1010565120, 1072431104, 1072431104),
  (673710080, 431489024, 431489024),
  (808452096, 756023296, 756023296),
  (538968064, 975175680, 975175680),
  (1069547520, 331350016, 331350016),
  (713031680, 562036736, 562036736),
  (855638016, 1023410176, 1023410176),
  (570425344, 436207616, 436207616),
  (1006632960, 738197504, 738197504),
  (671088640, 939524096, 939524096),
  (805306368, 268435456, 268435456),
  (536870912, 536870912, 536870912)]

set_option maxRecDepth 20000 in
theorem tab011_eq : tabOf (0, 1, 1) = tab011 := by
  unfold tabOf dir
  decide +kernel

set_option maxRecDepth 20000 in
theorem net011_two : chkAll true 2 tab011 = true := by
  decide +kernel

end Shellfish.Sobol
