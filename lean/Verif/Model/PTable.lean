import Verif.Basic
import Mathlib.Data.Rat.Defs
import Mathlib.Data.Rat.Init

/-!
# The table of elements and isotopes (`PeriodicTable::fill_pt_backup`, PeriodicTable.cc 215-3457)

Transcribed from the source by a script: the entries in their order, each with the values of its members after the block has been
executed (an isotope starts as a copy of its element). Strings are lists of character codes; `dec m k` is the decimal number
`m / 10^k`.
-/

namespace Pdffit.Scat

/-- C++ strings -/
abbrev Bytes := List Nat

/-- `AtomType` (AtomType.h 29-53). -/
structure AtomType where
  symbol : Bytes
  name : Bytes
  isotope : Bool
  z : Nat
  M : Rat
  charge : Int
  radius : Rat
  xsf : Rat
  nsf : Rat

/-- A decimal number. -/
def dec (m : Int) (k : Nat) : Rat := m / 10 ^ k

/-- `pt_backup`, and the initial `pt_public`. -/
def table : List AtomType :=
  [
  -- H
  ⟨[72], [72, 121, 100, 114, 111, 103, 101, 110], false, 1, (dec 1007947 6), 0, (dec 435 3), (dec 1 0), (dec (-37409) 4)⟩,
  -- 1-H
  ⟨[49, 45, 72], [49, 45, 72, 121, 100, 114, 111, 103, 101, 110], true, 1, (dec 10078250321 10), 0, (dec 435 3), (dec 1 0), (dec (-37423) 4)⟩,
  -- D
  ⟨[68], [68, 101, 117, 116, 101, 114, 105, 117, 109], true, 1, (dec 2014101778 9), 0, (dec 435 3), (dec 1 0), (dec 6674 3)⟩,
  -- T
  ⟨[84], [84, 114, 105, 116, 105, 117, 109], true, 1, (dec 30160492675 10), 0, (dec 435 3), (dec 1 0), (dec 4792 3)⟩,
  -- He
  ⟨[72, 101], [72, 101, 108, 105, 117, 109], false, 2, (dec 40026022 7), 0, (dec 14 1), (dec 2 0), (dec 3263 3)⟩,
  -- 3-He
  ⟨[51, 45, 72, 101], [51, 45, 72, 101, 108, 105, 117, 109], true, 2, (dec 30160293097 10), 0, (dec 14 1), (dec 2 0), (dec 574 2)⟩,
  -- 4-He
  ⟨[52, 45, 72, 101], [52, 45, 72, 101, 108, 105, 117, 109], true, 2, (dec 40026032497 10), 0, (dec 14 1), (dec 2 0), (dec 326 2)⟩,
  -- Li
  ⟨[76, 105], [76, 105, 116, 104, 105, 117, 109], false, 3, (dec 69412 4), 0, (dec 15199 4), (dec 3 0), (dec (-1903) 3)⟩,
  -- 6-Li
  ⟨[54, 45, 76, 105], [54, 45, 76, 105, 116, 104, 105, 117, 109], true, 3, (dec 60151223 7), 0, (dec 15199 4), (dec 3 0), (dec 2 0)⟩,
  -- 7-Li
  ⟨[55, 45, 76, 105], [55, 45, 76, 105, 116, 104, 105, 117, 109], true, 3, (dec 7016004 6), 0, (dec 15199 4), (dec 3 0), (dec (-222) 2)⟩,
  -- Be
  ⟨[66, 101], [66, 101, 114, 121, 108, 108, 105, 117, 109], false, 4, (dec 90121823 7), 0, (dec 1143 3), (dec 4 0), (dec 7791 3)⟩,
  -- B
  ⟨[66], [66, 111, 114, 111, 110], false, 5, (dec 108117 4), 0, (dec 975 3), (dec 5 0), (dec 5304 3)⟩,
  -- 10-B
  ⟨[49, 48, 45, 66], [49, 48, 45, 66, 111, 114, 111, 110], true, 5, (dec 10012937 6), 0, (dec 975 3), (dec 5 0), (dec (-2) 1)⟩,
  -- 11-B
  ⟨[49, 49, 45, 66], [49, 49, 45, 66, 111, 114, 111, 110], true, 5, (dec 110093055 7), 0, (dec 975 3), (dec 5 0), (dec 665 2)⟩,
  -- C
  ⟨[67], [67, 97, 114, 98, 111, 110], false, 6, (dec 1201078 5), 0, (dec 655 3), (dec 6 0), (dec 6648413 6)⟩,
  -- 12-C
  ⟨[49, 50, 45, 67], [49, 50, 45, 67, 97, 114, 98, 111, 110], true, 6, (dec 12 0), 0, (dec 655 3), (dec 6 0), (dec 66535 4)⟩,
  -- 13-C
  ⟨[49, 51, 45, 67], [49, 51, 45, 67, 97, 114, 98, 111, 110], true, 6, (dec 130033548378 10), 0, (dec 655 3), (dec 6 0), (dec 619 2)⟩,
  -- N
  ⟨[78], [78, 105, 116, 114, 111, 103, 101, 110], false, 7, (dec 1400672 5), 0, (dec 75 2), (dec 7 0), (dec 936 2)⟩,
  -- 14-N
  ⟨[49, 52, 45, 78], [49, 52, 45, 78, 105, 116, 114, 111, 103, 101, 110], true, 7, (dec 140030740052 10), 0, (dec 75 2), (dec 7 0), (dec 937 2)⟩,
  -- 15-N
  ⟨[49, 53, 45, 78], [49, 53, 45, 78, 105, 116, 114, 111, 103, 101, 110], true, 7, (dec 150001088984 10), 0, (dec 75 2), (dec 7 0), (dec 644 2)⟩,
  -- O
  ⟨[79], [79, 120, 121, 103, 101, 110], false, 8, (dec 1599943 5), 0, (dec 73 2), (dec 8 0), (dec 58054 4)⟩,
  -- 16-O
  ⟨[49, 54, 45, 79], [49, 54, 45, 79, 120, 121, 103, 101, 110], true, 8, (dec 159949146221 10), 0, (dec 73 2), (dec 8 0), (dec 5805 3)⟩,
  -- 17-O
  ⟨[49, 55, 45, 79], [49, 55, 45, 79, 120, 121, 103, 101, 110], true, 8, (dec 169991315 7), 0, (dec 73 2), (dec 8 0), (dec 56 1)⟩,
  -- 18-O
  ⟨[49, 56, 45, 79], [49, 56, 45, 79, 120, 121, 103, 101, 110], true, 8, (dec 179991604 7), 0, (dec 73 2), (dec 8 0), (dec 584 2)⟩,
  -- F
  ⟨[70], [70, 108, 117, 111, 114, 105, 110, 101], false, 9, (dec 1899840325 8), 0, (dec 72 2), (dec 9 0), (dec 565412 5)⟩,
  -- Ne
  ⟨[78, 101], [78, 101, 111, 110], false, 10, (dec 2017976 5), 0, (dec 16 1), (dec 10 0), (dec 45666 4)⟩,
  -- 20-Ne
  ⟨[50, 48, 45, 78, 101], [50, 48, 45, 78, 101, 111, 110], true, 10, (dec 199924401759 10), 0, (dec 16 1), (dec 10 0), (dec 4631 3)⟩,
  -- 21-Ne
  ⟨[50, 49, 45, 78, 101], [50, 49, 45, 78, 101, 111, 110], true, 10, (dec 2099384674 8), 0, (dec 16 1), (dec 10 0), (dec 666 2)⟩,
  -- 22-Ne
  ⟨[50, 50, 45, 78, 101], [50, 50, 45, 78, 101, 111, 110], true, 10, (dec 2199138551 8), 0, (dec 16 1), (dec 10 0), (dec 387 2)⟩,
  -- Na
  ⟨[78, 97], [83, 111, 100, 105, 117, 109], false, 11, (dec 229897702 7), 0, (dec 18579 4), (dec 11 0), (dec 3632 3)⟩,
  -- Mg
  ⟨[77, 103], [77, 97, 103, 110, 101, 115, 105, 117, 109], false, 12, (dec 2430506 5), 0, (dec 16047 4), (dec 12 0), (dec 53754 4)⟩,
  -- 24-Mg
  ⟨[50, 52, 45, 77, 103], [50, 52, 45, 77, 97, 103, 110, 101, 115, 105, 117, 109], true, 12, (dec 239850419 7), 0, (dec 16047 4), (dec 12 0), (dec 549 2)⟩,
  -- 25-Mg
  ⟨[50, 53, 45, 77, 103], [50, 53, 45, 77, 97, 103, 110, 101, 115, 105, 117, 109], true, 12, (dec 2498583702 8), 0, (dec 16047 4), (dec 12 0), (dec 362 2)⟩,
  -- 26-Mg
  ⟨[50, 54, 45, 77, 103], [50, 54, 45, 77, 97, 103, 110, 101, 115, 105, 117, 109], true, 12, (dec 2598259304 8), 0, (dec 16047 4), (dec 12 0), (dec 489 2)⟩,
  -- Al
  ⟨[65, 108], [65, 108, 117, 109, 105, 110, 105, 117, 109], false, 13, (dec 269815382 7), 0, (dec 14318 4), (dec 13 0), (dec 34495 4)⟩,
  -- Si
  ⟨[83, 105], [83, 105, 108, 105, 99, 111, 110], false, 14, (dec 2808553 5), 0, (dec 11758 4), (dec 14 0), (dec 415071 5)⟩,
  -- 28-Si
  ⟨[50, 56, 45, 83, 105], [50, 56, 45, 83, 105, 108, 105, 99, 111, 110], true, 14, (dec 279769265327 10), 0, (dec 11758 4), (dec 14 0), (dec 4106 3)⟩,
  -- 29-Si
  ⟨[50, 57, 45, 83, 105], [50, 57, 45, 83, 105, 108, 105, 99, 111, 110], true, 14, (dec 2897649472 8), 0, (dec 11758 4), (dec 14 0), (dec 47 1)⟩,
  -- 30-Si
  ⟨[51, 48, 45, 83, 105], [51, 48, 45, 83, 105, 108, 105, 99, 111, 110], true, 14, (dec 2997377022 8), 0, (dec 11758 4), (dec 14 0), (dec 458 2)⟩,
  -- P
  ⟨[80], [80, 104, 111, 115, 112, 104, 111, 114, 117, 115], false, 15, (dec 309737612 7), 0, (dec 106 2), (dec 15 0), (dec 5131 3)⟩,
  -- S
  ⟨[83], [83, 117, 108, 102, 117, 114], false, 16, (dec 320655 4), 0, (dec 102 2), (dec 16 0), (dec 28471 4)⟩,
  -- 32-S
  ⟨[51, 50, 45, 83], [51, 50, 45, 83, 117, 108, 102, 117, 114], true, 16, (dec 3197207069 8), 0, (dec 102 2), (dec 16 0), (dec 2804 3)⟩,
  -- 33-S
  ⟨[51, 51, 45, 83], [51, 51, 45, 83, 117, 108, 102, 117, 114], true, 16, (dec 329714585 7), 0, (dec 102 2), (dec 16 0), (dec 474 2)⟩,
  -- 34-S
  ⟨[51, 52, 45, 83], [51, 52, 45, 83, 117, 108, 102, 117, 114], true, 16, (dec 3396786683 8), 0, (dec 102 2), (dec 16 0), (dec 348 2)⟩,
  -- 36-S
  ⟨[51, 54, 45, 83], [51, 54, 45, 83, 117, 108, 102, 117, 114], true, 16, (dec 3596708088 8), 0, (dec 102 2), (dec 16 0), (dec 3 0)⟩,
  -- Cl
  ⟨[67, 108], [67, 104, 108, 111, 114, 105, 110, 101], false, 17, (dec 354532 4), 0, (dec 99 2), (dec 17 0), (dec 957928 5)⟩,
  -- 35-Cl
  ⟨[51, 53, 45, 67, 108], [51, 53, 45, 67, 104, 108, 111, 114, 105, 110, 101], true, 17, (dec 3496885271 8), 0, (dec 99 2), (dec 17 0), (dec 117 1)⟩,
  -- 37-Cl
  ⟨[51, 55, 45, 67, 108], [51, 55, 45, 67, 104, 108, 111, 114, 105, 110, 101], true, 17, (dec 369659026 7), 0, (dec 99 2), (dec 17 0), (dec 308 2)⟩,
  -- Ar
  ⟨[65, 114], [65, 114, 103, 111, 110], false, 18, (dec 399481 4), 0, (dec 19 1), (dec 18 0), (dec 19096 4)⟩,
  -- 36-Ar
  ⟨[51, 54, 45, 65, 114], [51, 54, 45, 65, 114, 103, 111, 110], true, 18, (dec 3596754628 8), 0, (dec 19 1), (dec 18 0), (dec 249 1)⟩,
  -- 38-Ar
  ⟨[51, 56, 45, 65, 114], [51, 56, 45, 65, 114, 103, 111, 110], true, 18, (dec 379627322 7), 0, (dec 19 1), (dec 18 0), (dec 35 1)⟩,
  -- 40-Ar
  ⟨[52, 48, 45, 65, 114], [52, 48, 45, 65, 114, 103, 111, 110], true, 18, (dec 39962383123 9), 0, (dec 19 1), (dec 18 0), (dec 17 1)⟩,
  -- K
  ⟨[75], [80, 111, 116, 97, 115, 115, 105, 117, 109], false, 19, (dec 3909831 5), 0, (dec 2262 3), (dec 19 0), (dec 3672 3)⟩,
  -- 39-K
  ⟨[51, 57, 45, 75], [51, 57, 45, 80, 111, 116, 97, 115, 115, 105, 117, 109], true, 19, (dec 389637069 7), 0, (dec 2262 3), (dec 19 0), (dec 379 2)⟩,
  -- 40-K
  ⟨[52, 48, 45, 75], [52, 48, 45, 80, 111, 116, 97, 115, 115, 105, 117, 109], true, 19, (dec 3996399867 8), 0, (dec 2262 3), (dec 19 0), (dec 31 1)⟩,
  -- 41-K
  ⟨[52, 49, 45, 75], [52, 49, 45, 80, 111, 116, 97, 115, 115, 105, 117, 109], true, 19, (dec 4096182597 8), 0, (dec 2262 3), (dec 19 0), (dec 269 2)⟩,
  -- Ca
  ⟨[67, 97], [67, 97, 108, 99, 105, 117, 109], false, 20, (dec 400784 4), 0, (dec 19758 4), (dec 20 0), (dec 4702 3)⟩,
  -- 40-Ca
  ⟨[52, 48, 45, 67, 97], [52, 48, 45, 67, 97, 108, 99, 105, 117, 109], true, 20, (dec 399625912 7), 0, (dec 19758 4), (dec 20 0), (dec 478 2)⟩,
  -- 42-Ca
  ⟨[52, 50, 45, 67, 97], [52, 50, 45, 67, 97, 108, 99, 105, 117, 109], true, 20, (dec 419586183 7), 0, (dec 19758 4), (dec 20 0), (dec 336 2)⟩,
  -- 43-Ca
  ⟨[52, 51, 45, 67, 97], [52, 51, 45, 67, 97, 108, 99, 105, 117, 109], true, 20, (dec 429587668 7), 0, (dec 19758 4), (dec 20 0), (dec (-156) 2)⟩,
  -- 44-Ca
  ⟨[52, 52, 45, 67, 97], [52, 52, 45, 67, 97, 108, 99, 105, 117, 109], true, 20, (dec 439554811 7), 0, (dec 19758 4), (dec 20 0), (dec 142 2)⟩,
  -- 46-Ca
  ⟨[52, 54, 45, 67, 97], [52, 54, 45, 67, 97, 108, 99, 105, 117, 109], true, 20, (dec 459536928 7), 0, (dec 19758 4), (dec 20 0), (dec 355 2)⟩,
  -- 48-Ca
  ⟨[52, 56, 45, 67, 97], [52, 56, 45, 67, 97, 108, 99, 105, 117, 109], true, 20, (dec 47952534 6), 0, (dec 19758 4), (dec 20 0), (dec 39 2)⟩,
  -- Sc
  ⟨[83, 99], [83, 99, 97, 110, 100, 105, 117, 109], false, 21, (dec 449559108 7), 0, (dec 16545 4), (dec 21 0), (dec 1211 2)⟩,
  -- Ti
  ⟨[84, 105], [84, 105, 116, 97, 110, 105, 117, 109], false, 22, (dec 478671 4), 0, (dec 14755 4), (dec 22 0), (dec (-337013) 5)⟩,
  -- 46-Ti
  ⟨[52, 54, 45, 84, 105], [52, 54, 45, 84, 105, 116, 97, 110, 105, 117, 109], true, 22, (dec 459526295 7), 0, (dec 14755 4), (dec 22 0), (dec 472 2)⟩,
  -- 47-Ti
  ⟨[52, 55, 45, 84, 105], [52, 55, 45, 84, 105, 116, 97, 110, 105, 117, 109], true, 22, (dec 469517638 7), 0, (dec 14755 4), (dec 22 0), (dec 353 2)⟩,
  -- 48-Ti
  ⟨[52, 56, 45, 84, 105], [52, 56, 45, 84, 105, 116, 97, 110, 105, 117, 109], true, 22, (dec 479479471 7), 0, (dec 14755 4), (dec 22 0), (dec (-586) 2)⟩,
  -- 49-Ti
  ⟨[52, 57, 45, 84, 105], [52, 57, 45, 84, 105, 116, 97, 110, 105, 117, 109], true, 22, (dec 489478708 7), 0, (dec 14755 4), (dec 22 0), (dec 98 2)⟩,
  -- 50-Ti
  ⟨[53, 48, 45, 84, 105], [53, 48, 45, 84, 105, 116, 97, 110, 105, 117, 109], true, 22, (dec 499447921 7), 0, (dec 14755 4), (dec 22 0), (dec 588 2)⟩,
  -- V
  ⟨[86], [86, 97, 110, 97, 100, 105, 117, 109], false, 23, (dec 5094151 5), 0, (dec 1309 3), (dec 23 0), (dec (-44314) 5)⟩,
  -- 50-V
  ⟨[53, 48, 45, 86], [53, 48, 45, 86, 97, 110, 97, 100, 105, 117, 109], true, 23, (dec 499471628 7), 0, (dec 1309 3), (dec 23 0), (dec 76 1)⟩,
  -- 51-V
  ⟨[53, 49, 45, 86], [53, 49, 45, 86, 97, 110, 97, 100, 105, 117, 109], true, 23, (dec 509439637 7), 0, (dec 1309 3), (dec 23 0), (dec (-402) 3)⟩,
  -- Cr
  ⟨[67, 114], [67, 104, 114, 111, 109, 105, 117, 109], false, 24, (dec 5199616 5), 0, (dec 1249 3), (dec 24 0), (dec 36357 4)⟩,
  -- 50-Cr
  ⟨[53, 48, 45, 67, 114], [53, 48, 45, 67, 104, 114, 111, 109, 105, 117, 109], true, 24, (dec 499460496 7), 0, (dec 1249 3), (dec 24 0), (dec (-45) 1)⟩,
  -- 52-Cr
  ⟨[53, 50, 45, 67, 114], [53, 50, 45, 67, 104, 114, 111, 109, 105, 117, 109], true, 24, (dec 519405119 7), 0, (dec 1249 3), (dec 24 0), (dec 4914 3)⟩,
  -- 53-Cr
  ⟨[53, 51, 45, 67, 114], [53, 51, 45, 67, 104, 114, 111, 109, 105, 117, 109], true, 24, (dec 529406538 7), 0, (dec 1249 3), (dec 24 0), (dec (-42) 1)⟩,
  -- 54-Cr
  ⟨[53, 52, 45, 67, 114], [53, 52, 45, 67, 104, 114, 111, 109, 105, 117, 109], true, 24, (dec 539388849 7), 0, (dec 1249 3), (dec 24 0), (dec 455 2)⟩,
  -- Mn
  ⟨[77, 110], [77, 97, 110, 103, 97, 110, 101, 115, 101], false, 25, (dec 549380499 7), 0, (dec 135 2), (dec 25 0), (dec (-375018) 5)⟩,
  -- Fe
  ⟨[70, 101], [73, 114, 111, 110], false, 26, (dec 558452 4), 0, (dec 12411 4), (dec 26 0), (dec 9452 3)⟩,
  -- 54-Fe
  ⟨[53, 52, 45, 70, 101], [53, 52, 45, 73, 114, 111, 110], true, 26, (dec 539396148 7), 0, (dec 12411 4), (dec 26 0), (dec 42 1)⟩,
  -- 56-Fe
  ⟨[53, 54, 45, 70, 101], [53, 54, 45, 73, 114, 111, 110], true, 26, (dec 559349421 7), 0, (dec 12411 4), (dec 26 0), (dec 101 1)⟩,
  -- 57-Fe
  ⟨[53, 55, 45, 70, 101], [53, 55, 45, 73, 114, 111, 110], true, 26, (dec 569353987 7), 0, (dec 12411 4), (dec 26 0), (dec 23 1)⟩,
  -- 58-Fe
  ⟨[53, 56, 45, 70, 101], [53, 56, 45, 73, 114, 111, 110], true, 26, (dec 579332805 7), 0, (dec 12411 4), (dec 26 0), (dec 15 0)⟩,
  -- Co
  ⟨[67, 111], [67, 111, 98, 97, 108, 116], false, 27, (dec 589332009 7), 0, (dec 12535 4), (dec 27 0), (dec 2492 3)⟩,
  -- Ni
  ⟨[78, 105], [78, 105, 99, 107, 101, 108], false, 28, (dec 5869342 5), 0, (dec 1246 3), (dec 28 0), (dec 1031 2)⟩,
  -- 58-Ni
  ⟨[53, 56, 45, 78, 105], [53, 56, 45, 78, 105, 99, 107, 101, 108], true, 28, (dec 579353479 7), 0, (dec 1246 3), (dec 28 0), (dec 144 1)⟩,
  -- 60-Ni
  ⟨[54, 48, 45, 78, 105], [54, 48, 45, 78, 105, 99, 107, 101, 108], true, 28, (dec 599307906 7), 0, (dec 1246 3), (dec 28 0), (dec 28 1)⟩,
  -- 61-Ni
  ⟨[54, 49, 45, 78, 105], [54, 49, 45, 78, 105, 99, 107, 101, 108], true, 28, (dec 609310604 7), 0, (dec 1246 3), (dec 28 0), (dec 76 1)⟩,
  -- 62-Ni
  ⟨[54, 50, 45, 78, 105], [54, 50, 45, 78, 105, 99, 107, 101, 108], true, 28, (dec 619283488 7), 0, (dec 1246 3), (dec 28 0), (dec (-87) 1)⟩,
  -- 64-Ni
  ⟨[54, 52, 45, 78, 105], [54, 52, 45, 78, 105, 99, 107, 101, 108], true, 28, (dec 639279696 7), 0, (dec 1246 3), (dec 28 0), (dec (-37) 2)⟩,
  -- Cu
  ⟨[67, 117], [67, 111, 112, 112, 101, 114], false, 29, (dec 635463 4), 0, (dec 1278 3), (dec 29 0), (dec 77184 4)⟩,
  -- 63-Cu
  ⟨[54, 51, 45, 67, 117], [54, 51, 45, 67, 111, 112, 112, 101, 114], true, 29, (dec 629296011 7), 0, (dec 1278 3), (dec 29 0), (dec 6477 3)⟩,
  -- 65-Cu
  ⟨[54, 53, 45, 67, 117], [54, 53, 45, 67, 111, 112, 112, 101, 114], true, 29, (dec 649277937 7), 0, (dec 1278 3), (dec 29 0), (dec 10204 3)⟩,
  -- Zn
  ⟨[90, 110], [90, 105, 110, 99], false, 30, (dec 654094 4), 0, (dec 13325 4), (dec 30 0), (dec 56805 4)⟩,
  -- 64-Zn
  ⟨[54, 52, 45, 90, 110], [54, 52, 45, 90, 105, 110, 99], true, 30, (dec 639291466 7), 0, (dec 13325 4), (dec 30 0), (dec 523 2)⟩,
  -- 66-Zn
  ⟨[54, 54, 45, 90, 110], [54, 54, 45, 90, 105, 110, 99], true, 30, (dec 659260368 7), 0, (dec 13325 4), (dec 30 0), (dec 598 2)⟩,
  -- 67-Zn
  ⟨[54, 55, 45, 90, 110], [54, 55, 45, 90, 105, 110, 99], true, 30, (dec 669271309 7), 0, (dec 13325 4), (dec 30 0), (dec 758 2)⟩,
  -- 68-Zn
  ⟨[54, 56, 45, 90, 110], [54, 56, 45, 90, 105, 110, 99], true, 30, (dec 679248476 7), 0, (dec 13325 4), (dec 30 0), (dec 604 2)⟩,
  -- 70-Zn
  ⟨[55, 48, 45, 90, 110], [55, 48, 45, 90, 105, 110, 99], true, 30, (dec 69925325 6), 0, (dec 13325 4), (dec 30 0), (dec 69 1)⟩,
  -- Ga
  ⟨[71, 97], [71, 97, 108, 108, 105, 117, 109], false, 31, (dec 697231 4), 0, (dec 13501 4), (dec 31 0), (dec 72882 4)⟩,
  -- 69-Ga
  ⟨[54, 57, 45, 71, 97], [54, 57, 45, 71, 97, 108, 108, 105, 117, 109], true, 31, (dec 68925581 6), 0, (dec 13501 4), (dec 31 0), (dec 8043 3)⟩,
  -- 71-Ga
  ⟨[55, 49, 45, 71, 97], [55, 49, 45, 71, 97, 108, 108, 105, 117, 109], true, 31, (dec 70924705 6), 0, (dec 13501 4), (dec 31 0), (dec 617 2)⟩,
  -- Ge
  ⟨[71, 101], [71, 101, 114, 109, 97, 110, 105, 117, 109], false, 32, (dec 72641 3), 0, (dec 12248 4), (dec 32 0), (dec 81852 4)⟩,
  -- 70-Ge
  ⟨[55, 48, 45, 71, 101], [55, 48, 45, 71, 101, 114, 109, 97, 110, 105, 117, 109], true, 32, (dec 699242504 7), 0, (dec 12248 4), (dec 32 0), (dec 10 0)⟩,
  -- 72-Ge
  ⟨[55, 50, 45, 71, 101], [55, 50, 45, 71, 101, 114, 109, 97, 110, 105, 117, 109], true, 32, (dec 719220762 7), 0, (dec 12248 4), (dec 32 0), (dec 851 2)⟩,
  -- 73-Ge
  ⟨[55, 51, 45, 71, 101], [55, 51, 45, 71, 101, 114, 109, 97, 110, 105, 117, 109], true, 32, (dec 729234594 7), 0, (dec 12248 4), (dec 32 0), (dec 502 2)⟩,
  -- 74-Ge
  ⟨[55, 52, 45, 71, 101], [55, 52, 45, 71, 101, 114, 109, 97, 110, 105, 117, 109], true, 32, (dec 739211782 7), 0, (dec 12248 4), (dec 32 0), (dec 758 2)⟩,
  -- 76-Ge
  ⟨[55, 54, 45, 71, 101], [55, 54, 45, 71, 101, 114, 109, 97, 110, 105, 117, 109], true, 32, (dec 759214027 7), 0, (dec 12248 4), (dec 32 0), (dec 82 1)⟩,
  -- As
  ⟨[65, 115], [65, 114, 115, 101, 110, 105, 99], false, 33, (dec 74921602 6), 0, (dec 12 1), (dec 33 0), (dec 6581 3)⟩,
  -- Se
  ⟨[83, 101], [83, 101, 108, 101, 110, 105, 117, 109], false, 34, (dec 78963 3), 0, (dec 116 2), (dec 34 0), (dec 79709 4)⟩,
  -- 74-Se
  ⟨[55, 52, 45, 83, 101], [55, 52, 45, 83, 101, 108, 101, 110, 105, 117, 109], true, 34, (dec 739224766 7), 0, (dec 116 2), (dec 34 0), (dec 8 1)⟩,
  -- 76-Se
  ⟨[55, 54, 45, 83, 101], [55, 54, 45, 83, 101, 108, 101, 110, 105, 117, 109], true, 34, (dec 759192141 7), 0, (dec 116 2), (dec 34 0), (dec 122 1)⟩,
  -- 77-Se
  ⟨[55, 55, 45, 83, 101], [55, 55, 45, 83, 101, 108, 101, 110, 105, 117, 109], true, 34, (dec 769199146 7), 0, (dec 116 2), (dec 34 0), (dec 825 2)⟩,
  -- 78-Se
  ⟨[55, 56, 45, 83, 101], [55, 56, 45, 83, 101, 108, 101, 110, 105, 117, 109], true, 34, (dec 779173095 7), 0, (dec 116 2), (dec 34 0), (dec 824 2)⟩,
  -- 80-Se
  ⟨[56, 48, 45, 83, 101], [56, 48, 45, 83, 101, 108, 101, 110, 105, 117, 109], true, 34, (dec 799165218 7), 0, (dec 116 2), (dec 34 0), (dec 748 2)⟩,
  -- 82-Se
  ⟨[56, 50, 45, 83, 101], [56, 50, 45, 83, 101, 108, 101, 110, 105, 117, 109], true, 34, (dec 819167 4), 0, (dec 116 2), (dec 34 0), (dec 634 2)⟩,
  -- Br
  ⟨[66, 114], [66, 114, 111, 109, 105, 110, 101], false, 35, (dec 799041 4), 0, (dec 114 2), (dec 35 0), (dec 6792 3)⟩,
  -- 79-Br
  ⟨[55, 57, 45, 66, 114], [55, 57, 45, 66, 114, 111, 109, 105, 110, 101], true, 35, (dec 789183376 7), 0, (dec 114 2), (dec 35 0), (dec 679 2)⟩,
  -- 81-Br
  ⟨[56, 49, 45, 66, 114], [56, 49, 45, 66, 114, 111, 109, 105, 110, 101], true, 35, (dec 80916291 6), 0, (dec 114 2), (dec 35 0), (dec 678 2)⟩,
  -- Kr
  ⟨[75, 114], [75, 114, 121, 112, 116, 111, 110], false, 36, (dec 837982 4), 0, (dec 2 0), (dec 36 0), (dec 7812 3)⟩,
  -- 86-Kr
  ⟨[56, 54, 45, 75, 114], [56, 54, 45, 75, 114, 121, 112, 116, 111, 110], true, 36, (dec 859106103 7), 0, (dec 2 0), (dec 36 0), (dec 807 2)⟩,
  -- Rb
  ⟨[82, 98], [82, 117, 98, 105, 100, 105, 117, 109], false, 37, (dec 8546783 5), 0, (dec 247 2), (dec 37 0), (dec 7082 3)⟩,
  -- 85-Rb
  ⟨[56, 53, 45, 82, 98], [56, 53, 45, 82, 117, 98, 105, 100, 105, 117, 109], true, 37, (dec 849117893 7), 0, (dec 247 2), (dec 37 0), (dec 707 2)⟩,
  -- 87-Rb
  ⟨[56, 55, 45, 82, 98], [56, 55, 45, 82, 117, 98, 105, 100, 105, 117, 109], true, 37, (dec 869091835 7), 0, (dec 247 2), (dec 37 0), (dec 727 2)⟩,
  -- Sr
  ⟨[83, 114], [83, 116, 114, 111, 110, 116, 105, 117, 109], false, 38, (dec 87621 3), 0, (dec 21513 4), (dec 38 0), (dec 7022 3)⟩,
  -- 84-Sr
  ⟨[56, 52, 45, 83, 114], [56, 52, 45, 83, 116, 114, 111, 110, 116, 105, 117, 109], true, 38, (dec 83913425 6), 0, (dec 21513 4), (dec 38 0), (dec 5 0)⟩,
  -- 86-Sr
  ⟨[56, 54, 45, 83, 114], [56, 54, 45, 83, 116, 114, 111, 110, 116, 105, 117, 109], true, 38, (dec 859092624 7), 0, (dec 21513 4), (dec 38 0), (dec 568 2)⟩,
  -- 87-Sr
  ⟨[56, 55, 45, 83, 114], [56, 55, 45, 83, 116, 114, 111, 110, 116, 105, 117, 109], true, 38, (dec 869088793 7), 0, (dec 21513 4), (dec 38 0), (dec 741 2)⟩,
  -- 88-Sr
  ⟨[56, 56, 45, 83, 114], [56, 56, 45, 83, 116, 114, 111, 110, 116, 105, 117, 109], true, 38, (dec 879056143 7), 0, (dec 21513 4), (dec 38 0), (dec 716 2)⟩,
  -- Y
  ⟨[89], [89, 116, 116, 114, 105, 117, 109], false, 39, (dec 88905852 6), 0, (dec 18237 4), (dec 39 0), (dec 7752 3)⟩,
  -- Zr
  ⟨[90, 114], [90, 105, 114, 99, 111, 110, 105, 117, 109], false, 40, (dec 912242 4), 0, (dec 16156 4), (dec 40 0), (dec 7163 3)⟩,
  -- 90-Zr
  ⟨[57, 48, 45, 90, 114], [57, 48, 45, 90, 105, 114, 99, 111, 110, 105, 117, 109], true, 40, (dec 899047037 7), 0, (dec 16156 4), (dec 40 0), (dec 65 1)⟩,
  -- 91-Zr
  ⟨[57, 49, 45, 90, 114], [57, 49, 45, 90, 105, 114, 99, 111, 110, 105, 117, 109], true, 40, (dec 90905645 6), 0, (dec 16156 4), (dec 40 0), (dec 88 1)⟩,
  -- 92-Zr
  ⟨[57, 50, 45, 90, 114], [57, 50, 45, 90, 105, 114, 99, 111, 110, 105, 117, 109], true, 40, (dec 919050401 7), 0, (dec 16156 4), (dec 40 0), (dec 75 1)⟩,
  -- 94-Zr
  ⟨[57, 52, 45, 90, 114], [57, 52, 45, 90, 105, 114, 99, 111, 110, 105, 117, 109], true, 40, (dec 939063158 7), 0, (dec 16156 4), (dec 40 0), (dec 83 1)⟩,
  -- 96-Zr
  ⟨[57, 54, 45, 90, 114], [57, 54, 45, 90, 105, 114, 99, 111, 110, 105, 117, 109], true, 40, (dec 95908276 6), 0, (dec 16156 4), (dec 40 0), (dec 55 1)⟩,
  -- Nb
  ⟨[78, 98], [78, 105, 111, 98, 105, 117, 109], false, 41, (dec 92906382 6), 0, (dec 14318 4), (dec 41 0), (dec 70543 4)⟩,
  -- Mo
  ⟨[77, 111], [77, 111, 108, 121, 98, 100, 101, 110, 117, 109], false, 42, (dec 95942 3), 0, (dec 13626 4), (dec 42 0), (dec 67152 4)⟩,
  -- 92-Mo
  ⟨[57, 50, 45, 77, 111], [57, 50, 45, 77, 111, 108, 121, 98, 100, 101, 110, 117, 109], true, 42, (dec 9190681 5), 0, (dec 13626 4), (dec 42 0), (dec 693 2)⟩,
  -- 94-Mo
  ⟨[57, 52, 45, 77, 111], [57, 52, 45, 77, 111, 108, 121, 98, 100, 101, 110, 117, 109], true, 42, (dec 939050876 7), 0, (dec 13626 4), (dec 42 0), (dec 682 2)⟩,
  -- 95-Mo
  ⟨[57, 53, 45, 77, 111], [57, 53, 45, 77, 111, 108, 121, 98, 100, 101, 110, 117, 109], true, 42, (dec 949058415 7), 0, (dec 13626 4), (dec 42 0), (dec 693 2)⟩,
  -- 96-Mo
  ⟨[57, 54, 45, 77, 111], [57, 54, 45, 77, 111, 108, 121, 98, 100, 101, 110, 117, 109], true, 42, (dec 959046789 7), 0, (dec 13626 4), (dec 42 0), (dec 622 2)⟩,
  -- 97-Mo
  ⟨[57, 55, 45, 77, 111], [57, 55, 45, 77, 111, 108, 121, 98, 100, 101, 110, 117, 109], true, 42, (dec 96906021 6), 0, (dec 13626 4), (dec 42 0), (dec 726 2)⟩,
  -- 98-Mo
  ⟨[57, 56, 45, 77, 111], [57, 56, 45, 77, 111, 108, 121, 98, 100, 101, 110, 117, 109], true, 42, (dec 979054078 7), 0, (dec 13626 4), (dec 42 0), (dec 66 1)⟩,
  -- 100-Mo
  ⟨[49, 48, 48, 45, 77, 111], [49, 48, 48, 45, 77, 111, 108, 121, 98, 100, 101, 110, 117, 109], true, 42, (dec 99907477 6), 0, (dec 13626 4), (dec 42 0), (dec 675 2)⟩,
  -- Tc
  ⟨[84, 99], [84, 101, 99, 104, 110, 101, 116, 105, 117, 109], false, 43, (dec 98 0), 0, (dec 13675 4), (dec 43 0), (dec 683 2)⟩,
  -- Ru
  ⟨[82, 117], [82, 117, 116, 104, 101, 110, 105, 117, 109], false, 44, (dec 101072 3), 0, (dec 13529 4), (dec 44 0), (dec 7022 3)⟩,
  -- Rh
  ⟨[82, 104], [82, 104, 111, 100, 105, 117, 109], false, 45, (dec 102905502 6), 0, (dec 1345 3), (dec 45 0), (dec 5904 3)⟩,
  -- Pd
  ⟨[80, 100], [80, 97, 108, 108, 97, 100, 105, 117, 109], false, 46, (dec 106421 3), 0, (dec 13755 4), (dec 46 0), (dec 5916 3)⟩,
  -- 102-Pd
  ⟨[49, 48, 50, 45, 80, 100], [49, 48, 50, 45, 80, 97, 108, 108, 97, 100, 105, 117, 109], true, 46, (dec 101905608 6), 0, (dec 13755 4), (dec 46 0), (dec 77 1)⟩,
  -- 104-Pd
  ⟨[49, 48, 52, 45, 80, 100], [49, 48, 52, 45, 80, 97, 108, 108, 97, 100, 105, 117, 109], true, 46, (dec 103904035 6), 0, (dec 13755 4), (dec 46 0), (dec 77 1)⟩,
  -- 105-Pd
  ⟨[49, 48, 53, 45, 80, 100], [49, 48, 53, 45, 80, 97, 108, 108, 97, 100, 105, 117, 109], true, 46, (dec 104905084 6), 0, (dec 13755 4), (dec 46 0), (dec 55 1)⟩,
  -- 106-Pd
  ⟨[49, 48, 54, 45, 80, 100], [49, 48, 54, 45, 80, 97, 108, 108, 97, 100, 105, 117, 109], true, 46, (dec 105903483 6), 0, (dec 13755 4), (dec 46 0), (dec 64 1)⟩,
  -- 108-Pd
  ⟨[49, 48, 56, 45, 80, 100], [49, 48, 56, 45, 80, 97, 108, 108, 97, 100, 105, 117, 109], true, 46, (dec 107903894 6), 0, (dec 13755 4), (dec 46 0), (dec 41 1)⟩,
  -- 110-Pd
  ⟨[49, 49, 48, 45, 80, 100], [49, 49, 48, 45, 80, 97, 108, 108, 97, 100, 105, 117, 109], true, 46, (dec 109905152 6), 0, (dec 13755 4), (dec 46 0), (dec 77 1)⟩,
  -- Ag
  ⟨[65, 103], [83, 105, 108, 118, 101, 114], false, 47, (dec 10786822 5), 0, (dec 14447 4), (dec 47 0), (dec 59227 4)⟩,
  -- 107-Ag
  ⟨[49, 48, 55, 45, 65, 103], [49, 48, 55, 45, 83, 105, 108, 118, 101, 114], true, 47, (dec 106905093 6), 0, (dec 14447 4), (dec 47 0), (dec 7555 3)⟩,
  -- 109-Ag
  ⟨[49, 48, 57, 45, 65, 103], [49, 48, 57, 45, 83, 105, 108, 118, 101, 114], true, 47, (dec 108904756 6), 0, (dec 14447 4), (dec 47 0), (dec 4165 3)⟩,
  -- Cd
  ⟨[67, 100], [67, 97, 100, 109, 105, 117, 109], false, 48, (dec 1124118 4), 0, (dec 14894 4), (dec 48 0), (dec 4835 3)⟩,
  -- 106-Cd
  ⟨[49, 48, 54, 45, 67, 100], [49, 48, 54, 45, 67, 97, 100, 109, 105, 117, 109], true, 48, (dec 105906458 6), 0, (dec 14894 4), (dec 48 0), (dec 5 0)⟩,
  -- 108-Cd
  ⟨[49, 48, 56, 45, 67, 100], [49, 48, 56, 45, 67, 97, 100, 109, 105, 117, 109], true, 48, (dec 107904183 6), 0, (dec 14894 4), (dec 48 0), (dec 531 2)⟩,
  -- 110-Cd
  ⟨[49, 49, 48, 45, 67, 100], [49, 49, 48, 45, 67, 97, 100, 109, 105, 117, 109], true, 48, (dec 109903006 6), 0, (dec 14894 4), (dec 48 0), (dec 578 2)⟩,
  -- 111-Cd
  ⟨[49, 49, 49, 45, 67, 100], [49, 49, 49, 45, 67, 97, 100, 109, 105, 117, 109], true, 48, (dec 110904182 6), 0, (dec 14894 4), (dec 48 0), (dec 647 2)⟩,
  -- 112-Cd
  ⟨[49, 49, 50, 45, 67, 100], [49, 49, 50, 45, 67, 97, 100, 109, 105, 117, 109], true, 48, (dec 1119027572 7), 0, (dec 14894 4), (dec 48 0), (dec 634 2)⟩,
  -- 113-Cd
  ⟨[49, 49, 51, 45, 67, 100], [49, 49, 51, 45, 67, 97, 100, 109, 105, 117, 109], true, 48, (dec 1129044009 7), 0, (dec 14894 4), (dec 48 0), (dec (-8) 0)⟩,
  -- 114-Cd
  ⟨[49, 49, 52, 45, 67, 100], [49, 49, 52, 45, 67, 97, 100, 109, 105, 117, 109], true, 48, (dec 1139033581 7), 0, (dec 14894 4), (dec 48 0), (dec 748 2)⟩,
  -- 116-Cd
  ⟨[49, 49, 54, 45, 67, 100], [49, 49, 54, 45, 67, 97, 100, 109, 105, 117, 109], true, 48, (dec 115904755 6), 0, (dec 14894 4), (dec 48 0), (dec 626 2)⟩,
  -- In
  ⟨[73, 110], [73, 110, 100, 105, 117, 109], false, 49, (dec 1148183 4), 0, (dec 16662 4), (dec 49 0), (dec 40652 4)⟩,
  -- 113-In
  ⟨[49, 49, 51, 45, 73, 110], [49, 49, 51, 45, 73, 110, 100, 105, 117, 109], true, 49, (dec 112904061 6), 0, (dec 16662 4), (dec 49 0), (dec 539 2)⟩,
  -- 115-In
  ⟨[49, 49, 53, 45, 73, 110], [49, 49, 53, 45, 73, 110, 100, 105, 117, 109], true, 49, (dec 114903878 6), 0, (dec 16662 4), (dec 49 0), (dec 4 0)⟩,
  -- Sn
  ⟨[83, 110], [84, 105, 110], false, 50, (dec 1187107 4), 0, (dec 15375 4), (dec 50 0), (dec 62252 4)⟩,
  -- 112-Sn
  ⟨[49, 49, 50, 45, 83, 110], [49, 49, 50, 45, 84, 105, 110], true, 50, (dec 111904821 6), 0, (dec 15375 4), (dec 50 0), (dec 6 0)⟩,
  -- 114-Sn
  ⟨[49, 49, 52, 45, 83, 110], [49, 49, 52, 45, 84, 105, 110], true, 50, (dec 113902782 6), 0, (dec 15375 4), (dec 50 0), (dec 6 0)⟩,
  -- 115-Sn
  ⟨[49, 49, 53, 45, 83, 110], [49, 49, 53, 45, 84, 105, 110], true, 50, (dec 114903346 6), 0, (dec 15375 4), (dec 50 0), (dec 6 0)⟩,
  -- 116-Sn
  ⟨[49, 49, 54, 45, 83, 110], [49, 49, 54, 45, 84, 105, 110], true, 50, (dec 115901744 6), 0, (dec 15375 4), (dec 50 0), (dec 61 1)⟩,
  -- 117-Sn
  ⟨[49, 49, 55, 45, 83, 110], [49, 49, 55, 45, 84, 105, 110], true, 50, (dec 116902954 6), 0, (dec 15375 4), (dec 50 0), (dec 659 2)⟩,
  -- 118-Sn
  ⟨[49, 49, 56, 45, 83, 110], [49, 49, 56, 45, 84, 105, 110], true, 50, (dec 117901606 6), 0, (dec 15375 4), (dec 50 0), (dec 623 2)⟩,
  -- 119-Sn
  ⟨[49, 49, 57, 45, 83, 110], [49, 49, 57, 45, 84, 105, 110], true, 50, (dec 118903309 6), 0, (dec 15375 4), (dec 50 0), (dec 628 2)⟩,
  -- 120-Sn
  ⟨[49, 50, 48, 45, 83, 110], [49, 50, 48, 45, 84, 105, 110], true, 50, (dec 1199021966 7), 0, (dec 15375 4), (dec 50 0), (dec 667 2)⟩,
  -- 122-Sn
  ⟨[49, 50, 50, 45, 83, 110], [49, 50, 50, 45, 84, 105, 110], true, 50, (dec 1219034401 7), 0, (dec 15375 4), (dec 50 0), (dec 593 2)⟩,
  -- 124-Sn
  ⟨[49, 50, 52, 45, 83, 110], [49, 50, 52, 45, 84, 105, 110], true, 50, (dec 1239052746 7), 0, (dec 15375 4), (dec 50 0), (dec 615 2)⟩,
  -- Sb
  ⟨[83, 98], [65, 110, 116, 105, 109, 111, 110, 121], false, 51, (dec 1217601 4), 0, (dec 14 1), (dec 51 0), (dec 5573 3)⟩,
  -- 121-Sb
  ⟨[49, 50, 49, 45, 83, 98], [49, 50, 49, 45, 65, 110, 116, 105, 109, 111, 110, 121], true, 51, (dec 120903818 6), 0, (dec 14 1), (dec 51 0), (dec 571 2)⟩,
  -- 123-Sb
  ⟨[49, 50, 51, 45, 83, 98], [49, 50, 51, 45, 65, 110, 116, 105, 109, 111, 110, 121], true, 51, (dec 1229042157 7), 0, (dec 14 1), (dec 51 0), (dec 538 2)⟩,
  -- Te
  ⟨[84, 101], [84, 101, 108, 108, 117, 114, 105, 117, 109], false, 52, (dec 127603 3), 0, (dec 136 2), (dec 52 0), (dec 5682 3)⟩,
  -- 120-Te
  ⟨[49, 50, 48, 45, 84, 101], [49, 50, 48, 45, 84, 101, 108, 108, 117, 114, 105, 117, 109], true, 52, (dec 11990402 5), 0, (dec 136 2), (dec 52 0), (dec 53 1)⟩,
  -- 122-Te
  ⟨[49, 50, 50, 45, 84, 101], [49, 50, 50, 45, 84, 101, 108, 108, 117, 114, 105, 117, 109], true, 52, (dec 1219030471 7), 0, (dec 136 2), (dec 52 0), (dec 38 1)⟩,
  -- 123-Te
  ⟨[49, 50, 51, 45, 84, 101], [49, 50, 51, 45, 84, 101, 108, 108, 117, 114, 105, 117, 109], true, 52, (dec 122904273 6), 0, (dec 136 2), (dec 52 0), (dec (-5) 2)⟩,
  -- 124-Te
  ⟨[49, 50, 52, 45, 84, 101], [49, 50, 52, 45, 84, 101, 108, 108, 117, 114, 105, 117, 109], true, 52, (dec 1239028195 7), 0, (dec 136 2), (dec 52 0), (dec 795 2)⟩,
  -- 125-Te
  ⟨[49, 50, 53, 45, 84, 101], [49, 50, 53, 45, 84, 101, 108, 108, 117, 114, 105, 117, 109], true, 52, (dec 1249044247 7), 0, (dec 136 2), (dec 52 0), (dec 501 2)⟩,
  -- 126-Te
  ⟨[49, 50, 54, 45, 84, 101], [49, 50, 54, 45, 84, 101, 108, 108, 117, 114, 105, 117, 109], true, 52, (dec 1259033055 7), 0, (dec 136 2), (dec 52 0), (dec 555 2)⟩,
  -- 128-Te
  ⟨[49, 50, 56, 45, 84, 101], [49, 50, 56, 45, 84, 101, 108, 108, 117, 114, 105, 117, 109], true, 52, (dec 1279044614 7), 0, (dec 136 2), (dec 52 0), (dec 588 2)⟩,
  -- 130-Te
  ⟨[49, 51, 48, 45, 84, 101], [49, 51, 48, 45, 84, 101, 108, 108, 117, 114, 105, 117, 109], true, 52, (dec 1299062228 7), 0, (dec 136 2), (dec 52 0), (dec 601 2)⟩,
  -- I
  ⟨[73], [73, 111, 100, 105, 110, 101], false, 53, (dec 126904473 6), 0, (dec 133 2), (dec 53 0), (dec 5282 3)⟩,
  -- Xe
  ⟨[88, 101], [88, 101, 110, 111, 110], false, 54, (dec 1312936 4), 0, (dec 22 1), (dec 54 0), (dec 4694 3)⟩,
  -- Cs
  ⟨[67, 115], [67, 101, 115, 105, 117, 109], false, 55, (dec 132905452 6), 0, (dec 26325 4), (dec 55 0), (dec 5422 3)⟩,
  -- Ba
  ⟨[66, 97], [66, 97, 114, 105, 117, 109], false, 56, (dec 1373277 4), 0, (dec 21705 4), (dec 56 0), (dec 5073 3)⟩,
  -- 130-Ba
  ⟨[49, 51, 48, 45, 66, 97], [49, 51, 48, 45, 66, 97, 114, 105, 117, 109], true, 56, (dec 12990631 5), 0, (dec 21705 4), (dec 56 0), (dec (-36) 1)⟩,
  -- 132-Ba
  ⟨[49, 51, 50, 45, 66, 97], [49, 51, 50, 45, 66, 97, 114, 105, 117, 109], true, 56, (dec 131905056 6), 0, (dec 21705 4), (dec 56 0), (dec 78 1)⟩,
  -- 134-Ba
  ⟨[49, 51, 52, 45, 66, 97], [49, 51, 52, 45, 66, 97, 114, 105, 117, 109], true, 56, (dec 133904503 6), 0, (dec 21705 4), (dec 56 0), (dec 57 1)⟩,
  -- 135-Ba
  ⟨[49, 51, 53, 45, 66, 97], [49, 51, 53, 45, 66, 97, 114, 105, 117, 109], true, 56, (dec 134905683 6), 0, (dec 21705 4), (dec 56 0), (dec 466 2)⟩,
  -- 136-Ba
  ⟨[49, 51, 54, 45, 66, 97], [49, 51, 54, 45, 66, 97, 114, 105, 117, 109], true, 56, (dec 13590457 5), 0, (dec 21705 4), (dec 56 0), (dec 49 1)⟩,
  -- 137-Ba
  ⟨[49, 51, 55, 45, 66, 97], [49, 51, 55, 45, 66, 97, 114, 105, 117, 109], true, 56, (dec 136905821 6), 0, (dec 21705 4), (dec 56 0), (dec 682 2)⟩,
  -- 138-Ba
  ⟨[49, 51, 56, 45, 66, 97], [49, 51, 56, 45, 66, 97, 114, 105, 117, 109], true, 56, (dec 137905241 6), 0, (dec 21705 4), (dec 56 0), (dec 483 2)⟩,
  -- La
  ⟨[76, 97], [76, 97, 110, 116, 104, 97, 110, 117, 109], false, 57, (dec 13890552 5), 0, (dec 18725 4), (dec 57 0), (dec 8244 3)⟩,
  -- 138-La
  ⟨[49, 51, 56, 45, 76, 97], [49, 51, 56, 45, 76, 97, 110, 116, 104, 97, 110, 117, 109], true, 57, (dec 137907107 6), 0, (dec 18725 4), (dec 57 0), (dec 8 0)⟩,
  -- 139-La
  ⟨[49, 51, 57, 45, 76, 97], [49, 51, 57, 45, 76, 97, 110, 116, 104, 97, 110, 117, 109], true, 57, (dec 138906348 6), 0, (dec 18725 4), (dec 57 0), (dec 824 2)⟩,
  -- Ce
  ⟨[67, 101], [67, 101, 114, 105, 117, 109], false, 58, (dec 1401161 4), 0, (dec 18243 4), (dec 58 0), (dec 4842 3)⟩,
  -- 136-Ce
  ⟨[49, 51, 54, 45, 67, 101], [49, 51, 54, 45, 67, 101, 114, 105, 117, 109], true, 58, (dec 13590714 5), 0, (dec 18243 4), (dec 58 0), (dec 576 2)⟩,
  -- 138-Ce
  ⟨[49, 51, 56, 45, 67, 101], [49, 51, 56, 45, 67, 101, 114, 105, 117, 109], true, 58, (dec 137905986 6), 0, (dec 18243 4), (dec 58 0), (dec 665 2)⟩,
  -- 140-Ce
  ⟨[49, 52, 48, 45, 67, 101], [49, 52, 48, 45, 67, 101, 114, 105, 117, 109], true, 58, (dec 139905434 6), 0, (dec 18243 4), (dec 58 0), (dec 481 2)⟩,
  -- 142-Ce
  ⟨[49, 52, 50, 45, 67, 101], [49, 52, 50, 45, 67, 101, 114, 105, 117, 109], true, 58, (dec 14190924 5), 0, (dec 18243 4), (dec 58 0), (dec 472 2)⟩,
  -- Pr
  ⟨[80, 114], [80, 114, 97, 115, 101, 111, 100, 121, 109, 105, 117, 109], false, 59, (dec 140907652 6), 0, (dec 18362 4), (dec 59 0), (dec 4585 3)⟩,
  -- Nd
  ⟨[78, 100], [78, 101, 111, 100, 121, 109, 105, 117, 109], false, 60, (dec 144243 3), 0, (dec 18295 4), (dec 60 0), (dec 7695 3)⟩,
  -- 142-Nd
  ⟨[49, 52, 50, 45, 78, 100], [49, 52, 50, 45, 78, 101, 111, 100, 121, 109, 105, 117, 109], true, 60, (dec 141907719 6), 0, (dec 18295 4), (dec 60 0), (dec 77 1)⟩,
  -- 143-Nd
  ⟨[49, 52, 51, 45, 78, 100], [49, 52, 51, 45, 78, 101, 111, 100, 121, 109, 105, 117, 109], true, 60, (dec 14290981 5), 0, (dec 18295 4), (dec 60 0), (dec 14 0)⟩,
  -- 144-Nd
  ⟨[49, 52, 52, 45, 78, 100], [49, 52, 52, 45, 78, 101, 111, 100, 121, 109, 105, 117, 109], true, 60, (dec 143910083 6), 0, (dec 18295 4), (dec 60 0), (dec 28 1)⟩,
  -- 145-Nd
  ⟨[49, 52, 53, 45, 78, 100], [49, 52, 53, 45, 78, 101, 111, 100, 121, 109, 105, 117, 109], true, 60, (dec 144912569 6), 0, (dec 18295 4), (dec 60 0), (dec 14 0)⟩,
  -- 146-Nd
  ⟨[49, 52, 54, 45, 78, 100], [49, 52, 54, 45, 78, 101, 111, 100, 121, 109, 105, 117, 109], true, 60, (dec 145913112 6), 0, (dec 18295 4), (dec 60 0), (dec 87 1)⟩,
  -- 148-Nd
  ⟨[49, 52, 56, 45, 78, 100], [49, 52, 56, 45, 78, 101, 111, 100, 121, 109, 105, 117, 109], true, 60, (dec 147916889 6), 0, (dec 18295 4), (dec 60 0), (dec 57 1)⟩,
  -- 150-Nd
  ⟨[49, 53, 48, 45, 78, 100], [49, 53, 48, 45, 78, 101, 111, 100, 121, 109, 105, 117, 109], true, 60, (dec 149920887 6), 0, (dec 18295 4), (dec 60 0), (dec 528 2)⟩,
  -- Pm
  ⟨[80, 109], [80, 114, 111, 109, 101, 116, 104, 105, 117, 109], false, 61, (dec 145 0), 0, (dec 1809 3), (dec 61 0), (dec 1264 2)⟩,
  -- Sm
  ⟨[83, 109], [83, 97, 109, 97, 114, 105, 117, 109], false, 62, (dec 150363 3), 0, (dec 1804 3), (dec 62 0), (dec 5 3)⟩,
  -- 144-Sm
  ⟨[49, 52, 52, 45, 83, 109], [49, 52, 52, 45, 83, 97, 109, 97, 114, 105, 117, 109], true, 62, (dec 143911995 6), 0, (dec 1804 3), (dec 62 0), (dec (-3) 0)⟩,
  -- 147-Sm
  ⟨[49, 52, 55, 45, 83, 109], [49, 52, 55, 45, 83, 97, 109, 97, 114, 105, 117, 109], true, 62, (dec 146914893 6), 0, (dec 1804 3), (dec 62 0), (dec 14 0)⟩,
  -- 148-Sm
  ⟨[49, 52, 56, 45, 83, 109], [49, 52, 56, 45, 83, 97, 109, 97, 114, 105, 117, 109], true, 62, (dec 147914818 6), 0, (dec 1804 3), (dec 62 0), (dec (-3) 0)⟩,
  -- 149-Sm
  ⟨[49, 52, 57, 45, 83, 109], [49, 52, 57, 45, 83, 97, 109, 97, 114, 105, 117, 109], true, 62, (dec 14891718 5), 0, (dec 1804 3), (dec 62 0), (dec 187 1)⟩,
  -- 150-Sm
  ⟨[49, 53, 48, 45, 83, 109], [49, 53, 48, 45, 83, 97, 109, 97, 114, 105, 117, 109], true, 62, (dec 149917271 6), 0, (dec 1804 3), (dec 62 0), (dec 14 0)⟩,
  -- 152-Sm
  ⟨[49, 53, 50, 45, 83, 109], [49, 53, 50, 45, 83, 97, 109, 97, 114, 105, 117, 109], true, 62, (dec 151919728 6), 0, (dec 1804 3), (dec 62 0), (dec (-5) 0)⟩,
  -- 154-Sm
  ⟨[49, 53, 52, 45, 83, 109], [49, 53, 52, 45, 83, 97, 109, 97, 114, 105, 117, 109], true, 62, (dec 153922205 6), 0, (dec 1804 3), (dec 62 0), (dec 8 0)⟩,
  -- Eu
  ⟨[69, 117], [69, 117, 114, 111, 112, 105, 117, 109], false, 63, (dec 1519641 4), 0, (dec 1984 3), (dec 63 0), (dec 533 2)⟩,
  -- 153-Eu
  ⟨[49, 53, 51, 45, 69, 117], [49, 53, 51, 45, 69, 117, 114, 111, 112, 105, 117, 109], true, 63, (dec 152921226 6), 0, (dec 1984 3), (dec 63 0), (dec 822 2)⟩,
  -- Gd
  ⟨[71, 100], [71, 97, 100, 111, 108, 105, 110, 105, 117, 109], false, 64, (dec 157253 3), 0, (dec 1818 3), (dec 64 0), (dec 952 2)⟩,
  -- 152-Gd
  ⟨[49, 53, 50, 45, 71, 100], [49, 53, 50, 45, 71, 97, 100, 111, 108, 105, 110, 105, 117, 109], true, 64, (dec 151919788 6), 0, (dec 1818 3), (dec 64 0), (dec 10 0)⟩,
  -- 154-Gd
  ⟨[49, 53, 52, 45, 71, 100], [49, 53, 52, 45, 71, 97, 100, 111, 108, 105, 110, 105, 117, 109], true, 64, (dec 153920862 6), 0, (dec 1818 3), (dec 64 0), (dec 10 0)⟩,
  -- 155-Gd
  ⟨[49, 53, 53, 45, 71, 100], [49, 53, 53, 45, 71, 97, 100, 111, 108, 105, 110, 105, 117, 109], true, 64, (dec 154922619 6), 0, (dec 1818 3), (dec 64 0), (dec 138 1)⟩,
  -- 156-Gd
  ⟨[49, 53, 54, 45, 71, 100], [49, 53, 54, 45, 71, 97, 100, 111, 108, 105, 110, 105, 117, 109], true, 64, (dec 15592212 5), 0, (dec 1818 3), (dec 64 0), (dec 63 1)⟩,
  -- 157-Gd
  ⟨[49, 53, 55, 45, 71, 100], [49, 53, 55, 45, 71, 97, 100, 111, 108, 105, 110, 105, 117, 109], true, 64, (dec 156923957 6), 0, (dec 1818 3), (dec 64 0), (dec 4 0)⟩,
  -- 158-Gd
  ⟨[49, 53, 56, 45, 71, 100], [49, 53, 56, 45, 71, 97, 100, 111, 108, 105, 110, 105, 117, 109], true, 64, (dec 157924101 6), 0, (dec 1818 3), (dec 64 0), (dec 9 0)⟩,
  -- 160-Gd
  ⟨[49, 54, 48, 45, 71, 100], [49, 54, 48, 45, 71, 97, 100, 111, 108, 105, 110, 105, 117, 109], true, 64, (dec 159927051 6), 0, (dec 1818 3), (dec 64 0), (dec 915 2)⟩,
  -- Tb
  ⟨[84, 98], [84, 101, 114, 98, 105, 117, 109], false, 65, (dec 158925342 6), 0, (dec 18005 4), (dec 65 0), (dec 7342 3)⟩,
  -- Dy
  ⟨[68, 121], [68, 121, 115, 112, 114, 111, 115, 105, 117, 109], false, 66, (dec 1625001 4), 0, (dec 17951 4), (dec 66 0), (dec 1693 2)⟩,
  -- 156-Dy
  ⟨[49, 53, 54, 45, 68, 121], [49, 53, 54, 45, 68, 121, 115, 112, 114, 111, 115, 105, 117, 109], true, 66, (dec 155924278 6), 0, (dec 17951 4), (dec 66 0), (dec 61 1)⟩,
  -- 158-Dy
  ⟨[49, 53, 56, 45, 68, 121], [49, 53, 56, 45, 68, 121, 115, 112, 114, 111, 115, 105, 117, 109], true, 66, (dec 157924405 6), 0, (dec 17951 4), (dec 66 0), (dec 6 0)⟩,
  -- 160-Dy
  ⟨[49, 54, 48, 45, 68, 121], [49, 54, 48, 45, 68, 121, 115, 112, 114, 111, 115, 105, 117, 109], true, 66, (dec 159925194 6), 0, (dec 17951 4), (dec 66 0), (dec 67 1)⟩,
  -- 161-Dy
  ⟨[49, 54, 49, 45, 68, 121], [49, 54, 49, 45, 68, 121, 115, 112, 114, 111, 115, 105, 117, 109], true, 66, (dec 16092693 5), 0, (dec 17951 4), (dec 66 0), (dec 103 1)⟩,
  -- 162-Dy
  ⟨[49, 54, 50, 45, 68, 121], [49, 54, 50, 45, 68, 121, 115, 112, 114, 111, 115, 105, 117, 109], true, 66, (dec 161926795 6), 0, (dec 17951 4), (dec 66 0), (dec (-14) 1)⟩,
  -- 163-Dy
  ⟨[49, 54, 51, 45, 68, 121], [49, 54, 51, 45, 68, 121, 115, 112, 114, 111, 115, 105, 117, 109], true, 66, (dec 162928728 6), 0, (dec 17951 4), (dec 66 0), (dec 5 0)⟩,
  -- 164-Dy
  ⟨[49, 54, 52, 45, 68, 121], [49, 54, 52, 45, 68, 121, 115, 112, 114, 111, 115, 105, 117, 109], true, 66, (dec 163929171 6), 0, (dec 17951 4), (dec 66 0), (dec 494 1)⟩,
  -- Ho
  ⟨[72, 111], [72, 111, 108, 109, 105, 117, 109], false, 67, (dec 164930322 6), 0, (dec 17886 4), (dec 67 0), (dec 8443 3)⟩,
  -- Er
  ⟨[69, 114], [69, 114, 98, 105, 117, 109], false, 68, (dec 1672593 4), 0, (dec 17794 4), (dec 68 0), (dec 7792 3)⟩,
  -- 162-Er
  ⟨[49, 54, 50, 45, 69, 114], [49, 54, 50, 45, 69, 114, 98, 105, 117, 109], true, 68, (dec 161928775 6), 0, (dec 17794 4), (dec 68 0), (dec 901 2)⟩,
  -- 164-Er
  ⟨[49, 54, 52, 45, 69, 114], [49, 54, 52, 45, 69, 114, 98, 105, 117, 109], true, 68, (dec 163929197 6), 0, (dec 17794 4), (dec 68 0), (dec 795 2)⟩,
  -- 166-Er
  ⟨[49, 54, 54, 45, 69, 114], [49, 54, 54, 45, 69, 114, 98, 105, 117, 109], true, 68, (dec 16593029 5), 0, (dec 17794 4), (dec 68 0), (dec 1051 2)⟩,
  -- 167-Er
  ⟨[49, 54, 55, 45, 69, 114], [49, 54, 55, 45, 69, 114, 98, 105, 117, 109], true, 68, (dec 166932045 6), 0, (dec 17794 4), (dec 68 0), (dec 306 2)⟩,
  -- 168-Er
  ⟨[49, 54, 56, 45, 69, 114], [49, 54, 56, 45, 69, 114, 98, 105, 117, 109], true, 68, (dec 167932368 6), 0, (dec 17794 4), (dec 68 0), (dec 743 2)⟩,
  -- 170-Er
  ⟨[49, 55, 48, 45, 69, 114], [49, 55, 48, 45, 69, 114, 98, 105, 117, 109], true, 68, (dec 16993546 5), 0, (dec 17794 4), (dec 68 0), (dec 961 2)⟩,
  -- Tm
  ⟨[84, 109], [84, 104, 117, 108, 105, 117, 109], false, 69, (dec 168934212 6), 0, (dec 17687 4), (dec 69 0), (dec 7073 3)⟩,
  -- Yb
  ⟨[89, 98], [89, 116, 116, 101, 114, 98, 105, 117, 109], false, 70, (dec 173043 3), 0, (dec 19396 4), (dec 70 0), (dec 12413 3)⟩,
  -- 168-Yb
  ⟨[49, 54, 56, 45, 89, 98], [49, 54, 56, 45, 89, 116, 116, 101, 114, 98, 105, 117, 109], true, 70, (dec 167933894 6), 0, (dec 19396 4), (dec 70 0), (dec (-407) 2)⟩,
  -- 170-Yb
  ⟨[49, 55, 48, 45, 89, 98], [49, 55, 48, 45, 89, 116, 116, 101, 114, 98, 105, 117, 109], true, 70, (dec 169934759 6), 0, (dec 19396 4), (dec 70 0), (dec 68 1)⟩,
  -- 171-Yb
  ⟨[49, 55, 49, 45, 89, 98], [49, 55, 49, 45, 89, 116, 116, 101, 114, 98, 105, 117, 109], true, 70, (dec 170936322 6), 0, (dec 19396 4), (dec 70 0), (dec 97 1)⟩,
  -- 172-Yb
  ⟨[49, 55, 50, 45, 89, 98], [49, 55, 50, 45, 89, 116, 116, 101, 114, 98, 105, 117, 109], true, 70, (dec 1719363777 7), 0, (dec 19396 4), (dec 70 0), (dec 95 1)⟩,
  -- 173-Yb
  ⟨[49, 55, 51, 45, 89, 98], [49, 55, 51, 45, 89, 116, 116, 101, 114, 98, 105, 117, 109], true, 70, (dec 1729382068 7), 0, (dec 19396 4), (dec 70 0), (dec 956 2)⟩,
  -- 174-Yb
  ⟨[49, 55, 52, 45, 89, 98], [49, 55, 52, 45, 89, 116, 116, 101, 114, 98, 105, 117, 109], true, 70, (dec 1739388581 7), 0, (dec 19396 4), (dec 70 0), (dec 192 1)⟩,
  -- 176-Yb
  ⟨[49, 55, 54, 45, 89, 98], [49, 55, 54, 45, 89, 116, 116, 101, 114, 98, 105, 117, 109], true, 70, (dec 175942568 6), 0, (dec 19396 4), (dec 70 0), (dec 87 1)⟩,
  -- Lu
  ⟨[76, 117], [76, 117, 116, 101, 116, 105, 117, 109], false, 71, (dec 1749671 4), 0, (dec 17515 4), (dec 71 0), (dec 7213 3)⟩,
  -- 175-Lu
  ⟨[49, 55, 53, 45, 76, 117], [49, 55, 53, 45, 76, 117, 116, 101, 116, 105, 117, 109], true, 71, (dec 1749407679 7), 0, (dec 17515 4), (dec 71 0), (dec 728 2)⟩,
  -- 176-Lu
  ⟨[49, 55, 54, 45, 76, 117], [49, 55, 54, 45, 76, 117, 116, 101, 116, 105, 117, 109], true, 71, (dec 1759426824 7), 0, (dec 17515 4), (dec 71 0), (dec 61 1)⟩,
  -- Hf
  ⟨[72, 102], [72, 97, 102, 110, 105, 117, 109], false, 72, (dec 178492 3), 0, (dec 15973 4), (dec 72 0), (dec 77714 4)⟩,
  -- 174-Hf
  ⟨[49, 55, 52, 45, 72, 102], [49, 55, 52, 45, 72, 97, 102, 110, 105, 117, 109], true, 72, (dec 17394004 5), 0, (dec 15973 4), (dec 72 0), (dec 109 1)⟩,
  -- 176-Hf
  ⟨[49, 55, 54, 45, 72, 102], [49, 55, 54, 45, 72, 97, 102, 110, 105, 117, 109], true, 72, (dec 1759414018 7), 0, (dec 15973 4), (dec 72 0), (dec 661 2)⟩,
  -- 177-Hf
  ⟨[49, 55, 55, 45, 72, 102], [49, 55, 55, 45, 72, 97, 102, 110, 105, 117, 109], true, 72, (dec 17694322 5), 0, (dec 15973 4), (dec 72 0), (dec 8 1)⟩,
  -- 178-Hf
  ⟨[49, 55, 56, 45, 72, 102], [49, 55, 56, 45, 72, 97, 102, 110, 105, 117, 109], true, 72, (dec 1779436977 7), 0, (dec 15973 4), (dec 72 0), (dec 59 1)⟩,
  -- 179-Hf
  ⟨[49, 55, 57, 45, 72, 102], [49, 55, 57, 45, 72, 97, 102, 110, 105, 117, 109], true, 72, (dec 1789458151 7), 0, (dec 15973 4), (dec 72 0), (dec 746 2)⟩,
  -- 180-Hf
  ⟨[49, 56, 48, 45, 72, 102], [49, 56, 48, 45, 72, 97, 102, 110, 105, 117, 109], true, 72, (dec 1799465488 7), 0, (dec 15973 4), (dec 72 0), (dec 132 1)⟩,
  -- Ta
  ⟨[84, 97], [84, 97, 110, 116, 97, 108, 117, 109], false, 73, (dec 18094791 5), 0, (dec 1428 3), (dec 73 0), (dec 6917 3)⟩,
  -- 180-Ta
  ⟨[49, 56, 48, 45, 84, 97], [49, 56, 48, 45, 84, 97, 110, 116, 97, 108, 117, 109], true, 73, (dec 179947466 6), 0, (dec 1428 3), (dec 73 0), (dec 7 0)⟩,
  -- 181-Ta
  ⟨[49, 56, 49, 45, 84, 97], [49, 56, 49, 45, 84, 97, 110, 116, 97, 108, 117, 109], true, 73, (dec 180947996 6), 0, (dec 1428 3), (dec 73 0), (dec 691 2)⟩,
  -- W
  ⟨[87], [84, 117, 110, 103, 115, 116, 101, 110], false, 74, (dec 183841 3), 0, (dec 13705 4), (dec 74 0), (dec 475518 5)⟩,
  -- 180-W
  ⟨[49, 56, 48, 45, 87], [49, 56, 48, 45, 84, 117, 110, 103, 115, 116, 101, 110], true, 74, (dec 179946706 6), 0, (dec 13705 4), (dec 74 0), (dec 5 0)⟩,
  -- 182-W
  ⟨[49, 56, 50, 45, 87], [49, 56, 50, 45, 84, 117, 110, 103, 115, 116, 101, 110], true, 74, (dec 181948206 6), 0, (dec 13705 4), (dec 74 0), (dec 704 2)⟩,
  -- 183-W
  ⟨[49, 56, 51, 45, 87], [49, 56, 51, 45, 84, 117, 110, 103, 115, 116, 101, 110], true, 74, (dec 1829502245 7), 0, (dec 13705 4), (dec 74 0), (dec 659 2)⟩,
  -- 184-W
  ⟨[49, 56, 52, 45, 87], [49, 56, 52, 45, 84, 117, 110, 103, 115, 116, 101, 110], true, 74, (dec 1839509326 7), 0, (dec 13705 4), (dec 74 0), (dec 755 2)⟩,
  -- 186-W
  ⟨[49, 56, 54, 45, 87], [49, 56, 54, 45, 84, 117, 110, 103, 115, 116, 101, 110], true, 74, (dec 185954362 6), 0, (dec 13705 4), (dec 74 0), (dec (-73) 2)⟩,
  -- Re
  ⟨[82, 101], [82, 104, 101, 110, 105, 117, 109], false, 75, (dec 1862071 4), 0, (dec 138 2), (dec 75 0), (dec 922 2)⟩,
  -- 185-Re
  ⟨[49, 56, 53, 45, 82, 101], [49, 56, 53, 45, 82, 104, 101, 110, 105, 117, 109], true, 75, (dec 1849529557 7), 0, (dec 138 2), (dec 75 0), (dec 9 0)⟩,
  -- 187-Re
  ⟨[49, 56, 55, 45, 82, 101], [49, 56, 55, 45, 82, 104, 101, 110, 105, 117, 109], true, 75, (dec 1869557508 7), 0, (dec 138 2), (dec 75 0), (dec 93 1)⟩,
  -- Os
  ⟨[79, 115], [79, 115, 109, 105, 117, 109], false, 76, (dec 190233 3), 0, (dec 13676 4), (dec 76 0), (dec 1072 2)⟩,
  -- 184-Os
  ⟨[49, 56, 52, 45, 79, 115], [49, 56, 52, 45, 79, 115, 109, 105, 117, 109], true, 76, (dec 183952491 6), 0, (dec 13676 4), (dec 76 0), (dec 10 0)⟩,
  -- 186-Os
  ⟨[49, 56, 54, 45, 79, 115], [49, 56, 54, 45, 79, 115, 109, 105, 117, 109], true, 76, (dec 185953838 6), 0, (dec 13676 4), (dec 76 0), (dec 12 0)⟩,
  -- 187-Os
  ⟨[49, 56, 55, 45, 79, 115], [49, 56, 55, 45, 79, 115, 109, 105, 117, 109], true, 76, (dec 1869557479 7), 0, (dec 13676 4), (dec 76 0), (dec 10 0)⟩,
  -- 188-Os
  ⟨[49, 56, 56, 45, 79, 115], [49, 56, 56, 45, 79, 115, 109, 105, 117, 109], true, 76, (dec 187955836 6), 0, (dec 13676 4), (dec 76 0), (dec 78 1)⟩,
  -- 189-Os
  ⟨[49, 56, 57, 45, 79, 115], [49, 56, 57, 45, 79, 115, 109, 105, 117, 109], true, 76, (dec 1889581449 7), 0, (dec 13676 4), (dec 76 0), (dec 11 0)⟩,
  -- 190-Os
  ⟨[49, 57, 48, 45, 79, 115], [49, 57, 48, 45, 79, 115, 109, 105, 117, 109], true, 76, (dec 189958445 6), 0, (dec 13676 4), (dec 76 0), (dec 114 1)⟩,
  -- 192-Os
  ⟨[49, 57, 50, 45, 79, 115], [49, 57, 50, 45, 79, 115, 109, 105, 117, 109], true, 76, (dec 191961479 6), 0, (dec 13676 4), (dec 76 0), (dec 119 1)⟩,
  -- Ir
  ⟨[73, 114], [73, 114, 105, 100, 105, 117, 109], false, 77, (dec 1922173 4), 0, (dec 13573 4), (dec 77 0), (dec 1063 2)⟩,
  -- Pt
  ⟨[80, 116], [80, 108, 97, 116, 105, 110, 117, 109], false, 78, (dec 1950782 4), 0, (dec 13873 4), (dec 78 0), (dec 9601 3)⟩,
  -- 190-Pt
  ⟨[49, 57, 48, 45, 80, 116], [49, 57, 48, 45, 80, 108, 97, 116, 105, 110, 117, 109], true, 78, (dec 18995993 5), 0, (dec 13873 4), (dec 78 0), (dec 9 0)⟩,
  -- 192-Pt
  ⟨[49, 57, 50, 45, 80, 116], [49, 57, 50, 45, 80, 108, 97, 116, 105, 110, 117, 109], true, 78, (dec 191961035 6), 0, (dec 13873 4), (dec 78 0), (dec 99 1)⟩,
  -- 194-Pt
  ⟨[49, 57, 52, 45, 80, 116], [49, 57, 52, 45, 80, 108, 97, 116, 105, 110, 117, 109], true, 78, (dec 193962664 6), 0, (dec 13873 4), (dec 78 0), (dec 1055 2)⟩,
  -- 195-Pt
  ⟨[49, 57, 53, 45, 80, 116], [49, 57, 53, 45, 80, 108, 97, 116, 105, 110, 117, 109], true, 78, (dec 194964774 6), 0, (dec 13873 4), (dec 78 0), (dec 891 2)⟩,
  -- 196-Pt
  ⟨[49, 57, 54, 45, 80, 116], [49, 57, 54, 45, 80, 108, 97, 116, 105, 110, 117, 109], true, 78, (dec 195964935 6), 0, (dec 13873 4), (dec 78 0), (dec 989 2)⟩,
  -- 198-Pt
  ⟨[49, 57, 56, 45, 80, 116], [49, 57, 56, 45, 80, 108, 97, 116, 105, 110, 117, 109], true, 78, (dec 197967876 6), 0, (dec 13873 4), (dec 78 0), (dec 78 1)⟩,
  -- Au
  ⟨[65, 117], [71, 111, 108, 100], false, 79, (dec 196966552 6), 0, (dec 14419 4), (dec 79 0), (dec 7907 3)⟩,
  -- Hg
  ⟨[72, 103], [77, 101, 114, 99, 117, 114, 121], false, 80, (dec 200592 3), 0, (dec 15025 4), (dec 80 0), (dec 1259545 5)⟩,
  -- 196-Hg
  ⟨[49, 57, 54, 45, 72, 103], [49, 57, 54, 45, 77, 101, 114, 99, 117, 114, 121], true, 80, (dec 195965815 6), 0, (dec 15025 4), (dec 80 0), (dec 303 1)⟩,
  -- 199-Hg
  ⟨[49, 57, 57, 45, 72, 103], [49, 57, 57, 45, 77, 101, 114, 99, 117, 114, 121], true, 80, (dec 198968262 6), 0, (dec 15025 4), (dec 80 0), (dec 169 1)⟩,
  -- 202-Hg
  ⟨[50, 48, 50, 45, 72, 103], [50, 48, 50, 45, 77, 101, 114, 99, 117, 114, 121], true, 80, (dec 201970626 6), 0, (dec 15025 4), (dec 80 0), (dec 11002 3)⟩,
  -- Tl
  ⟨[84, 108], [84, 104, 97, 108, 108, 105, 117, 109], false, 81, (dec 20438332 5), 0, (dec 17283 4), (dec 81 0), (dec 87765 4)⟩,
  -- 203-Tl
  ⟨[50, 48, 51, 45, 84, 108], [50, 48, 51, 45, 84, 104, 97, 108, 108, 105, 117, 109], true, 81, (dec 202972329 6), 0, (dec 17283 4), (dec 81 0), (dec 851 2)⟩,
  -- 205-Tl
  ⟨[50, 48, 53, 45, 84, 108], [50, 48, 53, 45, 84, 104, 97, 108, 108, 105, 117, 109], true, 81, (dec 204974412 6), 0, (dec 17283 4), (dec 81 0), (dec 887 2)⟩,
  -- Pb
  ⟨[80, 98], [76, 101, 97, 100], false, 82, (dec 20721 2), 0, (dec 17501 4), (dec 82 0), (dec 94012 4)⟩,
  -- 204-Pb
  ⟨[50, 48, 52, 45, 80, 98], [50, 48, 52, 45, 76, 101, 97, 100], true, 82, (dec 203973029 6), 0, (dec 17501 4), (dec 82 0), (dec 10893 3)⟩,
  -- 206-Pb
  ⟨[50, 48, 54, 45, 80, 98], [50, 48, 54, 45, 76, 101, 97, 100], true, 82, (dec 205974449 6), 0, (dec 17501 4), (dec 82 0), (dec 92221 4)⟩,
  -- 207-Pb
  ⟨[50, 48, 55, 45, 80, 98], [50, 48, 55, 45, 76, 101, 97, 100], true, 82, (dec 206975881 6), 0, (dec 17501 4), (dec 82 0), (dec 9286 3)⟩,
  -- 208-Pb
  ⟨[50, 48, 56, 45, 80, 98], [50, 48, 56, 45, 76, 101, 97, 100], true, 82, (dec 207976636 6), 0, (dec 17501 4), (dec 82 0), (dec 9494 3)⟩,
  -- Bi
  ⟨[66, 105], [66, 105, 115, 109, 117, 116, 104], false, 83, (dec 208980382 6), 0, (dec 146 2), (dec 83 0), (dec 85322 4)⟩,
  -- Po
  ⟨[80, 111], [80, 111, 108, 111, 110, 105, 117, 109], false, 84, (dec 209 0), 0, (dec 146 2), (dec 84 0), (dec 0 0)⟩,
  -- At
  ⟨[65, 116], [65, 115, 116, 97, 116, 105, 110, 101], false, 85, (dec 210 0), 0, (dec 145 2), (dec 85 0), (dec 0 0)⟩,
  -- Rn
  ⟨[82, 110], [82, 97, 100, 111, 110], false, 86, (dec 222 0), 0, (dec 143 2), (dec 86 0), (dec 0 0)⟩,
  -- Fr
  ⟨[70, 114], [70, 114, 97, 110, 99, 105, 117, 109], false, 87, (dec 223 0), 0, (dec 25 1), (dec 87 0), (dec 0 0)⟩,
  -- Ra
  ⟨[82, 97], [82, 97, 100, 105, 117, 109], false, 88, (dec 226 0), 0, (dec 214 2), (dec 88 0), (dec 10 0)⟩,
  -- Ac
  ⟨[65, 99], [65, 99, 116, 105, 110, 105, 117, 109], false, 89, (dec 227 0), 0, (dec 18775 4), (dec 89 0), (dec 0 0)⟩,
  -- Th
  ⟨[84, 104], [84, 104, 111, 114, 105, 117, 109], false, 90, (dec 23203811 5), 0, (dec 17975 4), (dec 90 0), (dec 1031 2)⟩,
  -- Pa
  ⟨[80, 97], [80, 114, 111, 116, 97, 99, 116, 105, 110, 105, 117, 109], false, 91, (dec 231035882 6), 0, (dec 16086 4), (dec 91 0), (dec 913 2)⟩,
  -- U
  ⟨[85], [85, 114, 97, 110, 105, 117, 109], false, 92, (dec 238028913 6), 0, (dec 15683 4), (dec 92 0), (dec 8417 3)⟩,
  -- 233-U
  ⟨[50, 51, 51, 45, 85], [50, 51, 51, 45, 85, 114, 97, 110, 105, 117, 109], true, 92, (dec 233039628 6), 0, (dec 15683 4), (dec 92 0), (dec 101 1)⟩,
  -- 234-U
  ⟨[50, 51, 52, 45, 85], [50, 51, 52, 45, 85, 114, 97, 110, 105, 117, 109], true, 92, (dec 2340409456 7), 0, (dec 15683 4), (dec 92 0), (dec 124 1)⟩,
  -- 235-U
  ⟨[50, 51, 53, 45, 85], [50, 51, 53, 45, 85, 114, 97, 110, 105, 117, 109], true, 92, (dec 2350439231 7), 0, (dec 15683 4), (dec 92 0), (dec 105 1)⟩,
  -- 238-U
  ⟨[50, 51, 56, 45, 85], [50, 51, 56, 45, 85, 114, 97, 110, 105, 117, 109], true, 92, (dec 2380507826 7), 0, (dec 15683 4), (dec 92 0), (dec 8407 3)⟩,
  -- Np
  ⟨[78, 112], [78, 101, 112, 116, 117, 110, 105, 117, 109], false, 93, (dec 237 0), 0, (dec 1 0), (dec 93 0), (dec 1055 2)⟩,
  -- Pu
  ⟨[80, 117], [80, 108, 117, 116, 111, 110, 105, 117, 109], false, 94, (dec 244 0), 0, (dec 1 0), (dec 94 0), (dec 771 2)⟩,
  -- 240-Pu
  ⟨[50, 52, 48, 45, 80, 117], [50, 52, 48, 45, 80, 108, 117, 116, 111, 110, 105, 117, 109], true, 94, (dec 2400538075 7), 0, (dec 1 0), (dec 94 0), (dec 35 1)⟩,
  -- 242-Pu
  ⟨[50, 52, 50, 45, 80, 117], [50, 52, 50, 45, 80, 108, 117, 116, 111, 110, 105, 117, 109], true, 94, (dec 2420587368 7), 0, (dec 1 0), (dec 94 0), (dec 81 1)⟩,
  -- Am
  ⟨[65, 109], [65, 109, 101, 114, 105, 99, 105, 117, 109], false, 95, (dec 243 0), 0, (dec 1 0), (dec 95 0), (dec 832 2)⟩,
  -- Cm
  ⟨[67, 109], [67, 117, 114, 105, 117, 109], false, 96, (dec 247 0), 0, (dec 1 0), (dec 96 0), (dec 953 2)⟩,
  -- 246-Cm
  ⟨[50, 52, 54, 45, 67, 109], [50, 52, 54, 45, 67, 117, 114, 105, 117, 109], true, 96, (dec 2460672176 7), 0, (dec 1 0), (dec 96 0), (dec 93 1)⟩,
  -- 248-Cm
  ⟨[50, 52, 56, 45, 67, 109], [50, 52, 56, 45, 67, 117, 114, 105, 117, 109], true, 96, (dec 248072342 6), 0, (dec 1 0), (dec 96 0), (dec 77 1)⟩,
  -- Bk
  ⟨[66, 107], [66, 101, 114, 107, 101, 108, 105, 117, 109], false, 97, (dec 247 0), 0, (dec 1 0), (dec 97 0), (dec 0 0)⟩,
  -- Cf
  ⟨[67, 102], [67, 97, 108, 105, 102, 111, 114, 110, 105, 117, 109], false, 98, (dec 251 0), 0, (dec 1 0), (dec 98 0), (dec 0 0)⟩,
  -- Es
  ⟨[69, 115], [69, 105, 110, 115, 116, 101, 105, 110, 105, 117, 109], false, 99, (dec 252 0), 0, (dec 1 0), (dec 99 0), (dec 0 0)⟩,
  -- Fm
  ⟨[70, 109], [70, 101, 114, 109, 105, 117, 109], false, 100, (dec 257 0), 0, (dec 1 0), (dec 100 0), (dec 0 0)⟩,
  -- Md
  ⟨[77, 100], [77, 101, 110, 100, 101, 108, 101, 118, 105, 117, 109], false, 101, (dec 258 0), 0, (dec 1 0), (dec 101 0), (dec 0 0)⟩,
  -- No
  ⟨[78, 111], [78, 111, 98, 101, 108, 105, 117, 109], false, 102, (dec 259 0), 0, (dec 1 0), (dec 102 0), (dec 0 0)⟩,
  -- Lr
  ⟨[76, 114], [76, 97, 119, 114, 101, 110, 99, 105, 117, 109], false, 103, (dec 262 0), 0, (dec 1 0), (dec 103 0), (dec 0 0)⟩,
  -- Rf
  ⟨[82, 102], [82, 117, 116, 104, 101, 114, 102, 111, 114, 100, 105, 117, 109], false, 104, (dec 261 0), 0, (dec 1 0), (dec 104 0), (dec 0 0)⟩,
  -- Db
  ⟨[68, 98], [68, 117, 98, 110, 105, 117, 109], false, 105, (dec 262 0), 0, (dec 1 0), (dec 105 0), (dec 0 0)⟩,
  -- Sg
  ⟨[83, 103], [83, 101, 97, 98, 111, 114, 103, 105, 117, 109], false, 106, (dec 266 0), 0, (dec 1 0), (dec 106 0), (dec 0 0)⟩,
  -- Bh
  ⟨[66, 104], [66, 111, 104, 114, 105, 117, 109], false, 107, (dec 264 0), 0, (dec 1 0), (dec 107 0), (dec 0 0)⟩,
  -- Hs
  ⟨[72, 115], [72, 97, 115, 115, 105, 117, 109], false, 108, (dec 277 0), 0, (dec 1 0), (dec 108 0), (dec 0 0)⟩,
  -- Mt
  ⟨[77, 116], [77, 101, 105, 116, 110, 101, 114, 105, 117, 109], false, 109, (dec 268 0), 0, (dec 1 0), (dec 109 0), (dec 0 0)⟩,
  -- Ds
  ⟨[68, 115], [68, 97, 114, 109, 115, 116, 97, 100, 116, 105, 117, 109], false, 110, (dec 281 0), 0, (dec 1 0), (dec 110 0), (dec 0 0)⟩,
  -- Rg
  ⟨[82, 103], [82, 111, 101, 110, 116, 103, 101, 110, 105, 117, 109], false, 111, (dec 272 0), 0, (dec 1 0), (dec 111 0), (dec 0 0)⟩]

end Pdffit.Scat
