import Mathlib.Data.Rat.Defs

/-!
# The OR-library files of the repository

The numbers of data/orlib/instance1.txt to instance8.txt, line by line: the input of
data/cc-instances/knapsack/generate-all-instances.sh:4.
-/

namespace Verif.Model

/-- data/orlib/instance1.txt, lines 1-13. -/
def orlib1 : List (List ℚ) :=
  [[6, 10, 3800],
   [100, 600, 1200, 2400, 500, 2000],
   [8, 12, 13, 64, 22, 41],
   [8, 12, 13, 75, 22, 41],
   [3, 6, 4, 18, 6, 4],
   [5, 10, 8, 32, 6, 12],
   [5, 13, 8, 42, 6, 20],
   [5, 13, 8, 48, 6, 20],
   [0, 0, 0, 0, 8, 0],
   [3, 0, 4, 0, 8, 0],
   [3, 2, 4, 0, 8, 4],
   [3, 2, 4, 8, 8, 4],
   [80, 96, 20, 36, 44, 48, 10, 18, 22, 24]]

/-- data/orlib/instance2.txt, lines 1-13. -/
def orlib2 : List (List ℚ) :=
  [[10, 10, 87061 / 10],
   [6001 / 10, 621 / 2, 1800, 3850, 93 / 5, 1987 / 10, 882, 4200, 805 / 2, 327],
   [20, 5, 100, 200, 2, 4, 60, 150, 80, 40],
   [20, 7, 130, 280, 2, 8, 110, 210, 100, 40],
   [60, 3, 50, 100, 4, 2, 20, 40, 6, 12],
   [60, 8, 70, 200, 4, 6, 40, 70, 16, 20],
   [60, 13, 70, 250, 4, 10, 60, 90, 20, 24],
   [60, 13, 70, 280, 4, 10, 70, 105, 22, 28],
   [5, 2, 20, 100, 2, 5, 10, 60, 0, 0],
   [45, 14, 80, 180, 6, 10, 40, 100, 20, 0],
   [55, 14, 80, 200, 6, 10, 50, 140, 30, 40],
   [65, 14, 80, 220, 6, 10, 50, 180, 30, 50],
   [450, 540, 200, 360, 440, 480, 200, 360, 440, 480]]

/-- data/orlib/instance3.txt, lines 1-13. -/
def orlib3 : List (List ℚ) :=
  [[15, 10, 4015],
   [100, 220, 90, 400, 300, 400, 205, 120, 160, 580, 400, 140, 100, 1300, 650],
   [8, 24, 13, 80, 70, 80, 45, 15, 28, 90, 130, 32, 20, 120, 40],
   [8, 44, 13, 100, 100, 90, 75, 25, 28, 120, 130, 32, 40, 160, 40],
   [3, 6, 4, 20, 20, 30, 8, 3, 12, 14, 40, 6, 3, 20, 5],
   [5, 9, 6, 40, 30, 40, 16, 5, 18, 24, 60, 16, 11, 30, 25],
   [5, 11, 7, 50, 40, 40, 19, 7, 18, 29, 70, 21, 17, 30, 25],
   [5, 11, 7, 55, 40, 40, 21, 9, 18, 29, 70, 21, 17, 35, 25],
   [0, 0, 1, 10, 4, 10, 0, 6, 0, 6, 32, 3, 0, 70, 10],
   [3, 4, 5, 20, 14, 20, 6, 12, 10, 18, 42, 9, 12, 100, 20],
   [3, 6, 9, 30, 29, 20, 12, 12, 10, 30, 42, 18, 18, 110, 20],
   [3, 8, 9, 35, 29, 20, 16, 15, 10, 30, 42, 20, 18, 120, 20],
   [550, 700, 130, 240, 280, 310, 110, 205, 260, 275]]

/-- data/orlib/instance4.txt, lines 1-13. -/
def orlib4 : List (List ℚ) :=
  [[20, 10, 6120],
   [100, 220, 90, 400, 300, 400, 205, 120, 160, 580, 400, 140, 100, 1300, 650, 320, 480, 80, 60,
    2550],
   [8, 24, 13, 80, 70, 80, 45, 15, 28, 90, 130, 32, 20, 120, 40, 30, 20, 6, 3, 180],
   [8, 44, 13, 100, 100, 90, 75, 25, 28, 120, 130, 32, 40, 160, 40, 60, 55, 10, 6, 240],
   [3, 6, 4, 20, 20, 30, 8, 3, 12, 14, 40, 6, 3, 20, 5, 0, 5, 3, 0, 20],
   [5, 9, 6, 40, 30, 40, 16, 5, 18, 24, 60, 16, 11, 30, 25, 10, 13, 5, 1, 80],
   [5, 11, 7, 50, 40, 40, 19, 7, 18, 29, 70, 21, 17, 30, 25, 15, 25, 5, 1, 100],
   [5, 11, 7, 55, 40, 40, 21, 9, 18, 29, 70, 21, 17, 35, 25, 20, 25, 5, 2, 110],
   [0, 0, 1, 10, 4, 10, 0, 6, 0, 6, 32, 3, 0, 70, 10, 0, 0, 0, 0, 0],
   [3, 4, 5, 20, 14, 20, 6, 12, 10, 18, 42, 9, 12, 100, 20, 5, 6, 4, 1, 20],
   [3, 6, 9, 30, 29, 20, 12, 12, 10, 30, 42, 18, 18, 110, 20, 15, 18, 7, 2, 40],
   [3, 8, 9, 35, 29, 20, 16, 15, 10, 30, 42, 20, 18, 120, 20, 20, 22, 7, 3, 50],
   [550, 700, 130, 240, 280, 310, 110, 205, 260, 275]]

/-- data/orlib/instance5.txt, lines 1-13. -/
def orlib5 : List (List ℚ) :=
  [[28, 10, 12400],
   [100, 220, 90, 400, 300, 400, 205, 120, 160, 580, 400, 140, 100, 1300, 650, 320, 480, 80, 60,
    2550, 3100, 1100, 950, 450, 300, 220, 200, 520],
   [8, 24, 13, 80, 70, 80, 45, 15, 28, 90, 130, 32, 20, 120, 40, 30, 20, 6, 3, 180, 220, 50, 30,
    50, 12, 5, 8, 18],
   [8, 44, 13, 100, 100, 90, 75, 25, 28, 120, 130, 32, 40, 160, 40, 60, 55, 10, 6, 240, 290, 80,
    90, 70, 27, 17, 8, 28],
   [3, 6, 4, 20, 20, 30, 8, 3, 12, 14, 40, 6, 3, 20, 5, 0, 5, 3, 0, 20, 30, 40, 10, 0, 5, 0, 0,
    10],
   [5, 9, 6, 40, 30, 40, 16, 5, 18, 24, 60, 16, 11, 30, 25, 10, 13, 5, 1, 80, 60, 50, 20, 30, 10,
    5, 3, 20],
   [5, 11, 7, 50, 40, 40, 19, 7, 18, 29, 70, 21, 17, 30, 25, 15, 25, 5, 1, 100, 70, 55, 20, 50,
    15, 15, 6, 20],
   [5, 11, 7, 55, 40, 40, 21, 9, 18, 29, 70, 21, 17, 35, 25, 20, 25, 5, 2, 110, 70, 55, 20, 50,
    20, 15, 6, 20],
   [0, 0, 1, 10, 4, 10, 0, 6, 0, 6, 32, 3, 0, 70, 10, 0, 0, 0, 0, 0, 30, 10, 0, 10, 10, 5, 0, 10],
   [3, 4, 5, 20, 14, 20, 6, 12, 10, 18, 42, 9, 12, 100, 20, 5, 6, 4, 1, 20, 50, 30, 5, 20, 20, 10,
    10, 20],
   [3, 6, 9, 30, 29, 20, 12, 12, 10, 30, 42, 18, 18, 110, 20, 15, 18, 7, 2, 40, 60, 50, 25, 25,
    25, 15, 10, 28],
   [3, 8, 9, 35, 29, 20, 16, 15, 10, 30, 42, 20, 18, 120, 20, 20, 22, 7, 3, 50, 60, 55, 25, 30,
    25, 15, 10, 28],
   [930, 1210, 272, 462, 532, 572, 240, 400, 470, 490]]

/-- data/orlib/instance6.txt, lines 1-8. -/
def orlib6 : List (List ℚ) :=
  [[39, 5, 10618],
   [560, 1125, 300, 620, 2100, 431, 68, 328, 47, 122, 322, 196, 41, 25, 425, 4260, 416, 115, 82,
    22, 631, 132, 420, 86, 42, 103, 215, 81, 91, 26, 49, 420, 316, 72, 71, 49, 108, 116, 90],
   [40, 91, 10, 30, 160, 20, 3, 12, 3, 18, 9, 25, 1, 1, 10, 280, 10, 8, 1, 1, 49, 8, 21, 6, 1, 5,
    10, 8, 2, 1, 0, 10, 42, 6, 4, 8, 0, 10, 1],
   [16, 92, 41, 16, 150, 23, 4, 18, 6, 0, 12, 8, 2, 1, 0, 200, 20, 6, 2, 1, 70, 9, 22, 4, 1, 5,
    10, 6, 4, 0, 4, 12, 8, 4, 3, 0, 10, 0, 6],
   [38, 39, 32, 71, 80, 26, 5, 40, 8, 12, 30, 15, 0, 1, 23, 100, 0, 20, 3, 0, 40, 6, 8, 0, 6, 4,
    22, 4, 6, 1, 5, 14, 8, 2, 8, 0, 20, 0, 0],
   [8, 71, 30, 60, 200, 18, 6, 30, 4, 8, 31, 6, 3, 0, 18, 60, 21, 4, 0, 2, 32, 15, 31, 2, 2, 7, 8,
    2, 8, 0, 2, 8, 6, 7, 1, 0, 0, 20, 8],
   [38, 52, 30, 42, 170, 9, 7, 20, 0, 3, 21, 4, 1, 2, 14, 310, 8, 4, 6, 1, 18, 15, 38, 10, 4, 8,
    6, 0, 0, 3, 0, 10, 6, 1, 3, 0, 3, 5, 4],
   [600, 500, 500, 500, 600]]

/-- data/orlib/instance7.txt, lines 1-8. -/
def orlib7 : List (List ℚ) :=
  [[50, 5, 16537],
   [560, 1125, 300, 620, 2100, 431, 68, 328, 47, 122, 322, 196, 41, 25, 425, 4260, 416, 115, 82,
    22, 631, 132, 420, 86, 42, 103, 215, 81, 91, 26, 49, 420, 316, 72, 71, 49, 108, 116, 90, 738,
    1811, 430, 3060, 215, 58, 296, 620, 418, 47, 81],
   [40, 91, 10, 30, 160, 20, 3, 12, 3, 18, 9, 25, 1, 1, 10, 280, 10, 8, 1, 1, 49, 8, 21, 6, 1, 5,
    10, 8, 2, 1, 0, 10, 42, 6, 4, 8, 0, 10, 1, 40, 86, 11, 120, 8, 3, 32, 28, 13, 2, 4],
   [16, 92, 41, 16, 150, 23, 4, 18, 6, 0, 12, 8, 2, 1, 0, 200, 20, 6, 2, 1, 70, 9, 22, 4, 1, 5,
    10, 6, 4, 0, 4, 12, 8, 4, 3, 0, 10, 0, 6, 28, 93, 9, 30, 22, 0, 36, 45, 13, 2, 2],
   [38, 39, 32, 71, 80, 26, 5, 40, 8, 12, 30, 15, 0, 1, 23, 100, 0, 20, 3, 0, 40, 6, 8, 0, 6, 4,
    22, 4, 6, 1, 5, 14, 8, 2, 8, 0, 20, 0, 0, 6, 12, 6, 80, 13, 6, 22, 14, 0, 1, 2],
   [8, 71, 30, 60, 200, 18, 6, 30, 4, 8, 31, 6, 3, 0, 18, 60, 21, 4, 0, 2, 32, 15, 31, 2, 2, 7, 8,
    2, 8, 0, 2, 8, 6, 7, 1, 0, 0, 20, 8, 14, 20, 2, 40, 6, 1, 14, 20, 12, 0, 1],
   [38, 52, 30, 42, 170, 9, 7, 20, 0, 3, 21, 4, 1, 2, 14, 310, 8, 4, 6, 1, 18, 15, 38, 10, 4, 8,
    6, 0, 0, 3, 0, 10, 6, 1, 3, 0, 3, 5, 4, 0, 30, 12, 16, 18, 3, 16, 22, 30, 4, 0],
   [800, 650, 550, 550, 650]]

/-- data/orlib/instance8.txt, lines 1-33. -/
def orlib8 : List (List ℚ) :=
  [[40, 30, 776],
   [82, 77, 110, 67, 61, 3, 6, 85, 2, 22, 238, 33, 56, 63, 69, 47, 63, 75, 6, 83, 47, 47, 7, 6,
    53, 76, 200, 29, 91, 6, 27, 52, 6, 51, 55, 72, 13, 6, 65, 95],
   [524, 774, 818, 56, 26, 22, 42, 20, 47, 37, 662, 21, 42, 57, 97, 75, 53, 49, 76, 96, 834, 785,
    42, 39, 979, 46, 608, 25, 23, 41, 667, 123, 805, 116, 19, 26, 760, 81, 699, 27],
   [16, 67, 792, 99, 21, 794, 53, 81, 73, 87, 837, 234, 64, 65, 908, 18, 758, 22, 27, 91, 13, 435,
    86, 29, 377, 73, 504, 5, 86, 61, 67, 255, 118, 332, 97, 370, 32, 23, 165, 75],
   [33, 42, 644, 96, 23, 49, 57, 931, 36, 5, 596, 978, 82, 59, 37, 22, 71, 788, 56, 96, 55, 283,
    348, 66, 873, 97, 33, 94, 42, 864, 464, 931, 33, 350, 15, 22, 9, 82, 358, 6],
   [51, 114, 716, 668, 23, 43, 55, 973, 47, 3, 350, 56, 77, 97, 28, 75, 61, 95, 26, 33, 430, 950,
    590, 32, 297, 140, 714, 828, 97, 27, 571, 449, 602, 789, 15, 85, 27, 11, 778, 19],
   [638, 720, 809, 31, 12, 82, 688, 868, 61, 17, 775, 82, 81, 860, 85, 49, 72, 72, 7, 13, 740,
    830, 72, 30, 221, 2, 9, 36, 150, 18, 586, 996, 519, 719, 320, 13, 654, 408, 70, 66],
   [978, 53, 983, 3, 93, 37, 704, 581, 698, 97, 712, 42, 45, 91, 56, 32, 41, 664, 290, 86, 22,
    234, 57, 784, 503, 2, 59, 37, 75, 36, 105, 47, 760, 15, 190, 3, 17, 328, 210, 294],
   [504, 37, 619, 93, 218, 23, 47, 303, 71, 56, 593, 744, 214, 67, 53, 22, 96, 16, 978, 53, 884,
    796, 36, 3, 724, 31, 468, 3, 81, 5, 509, 845, 293, 700, 75, 59, 9, 58, 67, 734],
   [16, 27, 206, 57, 7, 87, 21, 624, 33, 92, 770, 15, 32, 13, 1, 2, 644, 4, 13, 100, 604, 854, 96,
    910, 372, 39, 12, 990, 140, 39, 876, 813, 559, 952, 640, 59, 290, 644, 232, 76],
   [53, 36, 650, 210, 218, 520, 33, 12, 16, 86, 324, 100, 894, 818, 39, 7, 27, 318, 538, 43, 46,
    206, 92, 65, 944, 16, 7, 57, 174, 65, 320, 143, 382, 566, 878, 678, 284, 39, 755, 90],
   [16, 51, 310, 21, 7, 43, 25, 860, 45, 82, 354, 42, 72, 76, 73, 37, 99, 79, 59, 85, 52, 798, 45,
    26, 560, 36, 45, 12, 62, 62, 790, 920, 390, 44, 62, 83, 27, 43, 574, 86],
   [75, 51, 23, 26, 99, 426, 92, 99, 11, 51, 77, 66, 85, 554, 19, 604, 96, 77, 97, 55, 7, 85, 760,
    104, 580, 95, 927, 62, 51, 476, 716, 17, 37, 868, 267, 91, 2, 234, 444, 45],
   [95, 89, 5, 81, 270, 491, 6, 72, 410, 12, 644, 79, 910, 595, 85, 167, 430, 21, 414, 89, 6, 948,
    904, 67, 994, 13, 295, 65, 408, 211, 11, 49, 844, 11, 417, 570, 43, 39, 16, 430],
   [7, 63, 3, 63, 338, 402, 664, 21, 553, 128, 88, 458, 508, 222, 804, 720, 75, 45, 35, 55, 750,
    1, 96, 31, 846, 37, 496, 29, 210, 930, 653, 51, 35, 43, 393, 2, 834, 1, 418, 36],
   [59, 6, 218, 36, 92, 321, 22, 138, 423, 53, 828, 16, 93, 622, 13, 189, 36, 75, 58, 968, 66, 89,
    440, 91, 62, 67, 628, 23, 83, 943, 129, 950, 170, 67, 613, 608, 27, 554, 730, 710],
   [748, 654, 46, 69, 3, 769, 82, 624, 967, 948, 684, 15, 22, 586, 700, 343, 83, 57, 46, 65, 21,
    66, 51, 19, 882, 13, 254, 788, 760, 542, 339, 34, 13, 230, 327, 65, 87, 72, 71, 23],
   [964, 900, 99, 51, 628, 150, 22, 79, 132, 628, 52, 154, 21, 663, 968, 846, 620, 840, 72, 73, 6,
    110, 22, 20, 497, 2, 201, 2, 924, 866, 501, 57, 3, 2, 279, 5, 148, 86, 91, 93],
   [89, 26, 96, 37, 39, 89, 6, 53, 869, 2, 394, 82, 46, 541, 26, 268, 82, 72, 710, 16, 5, 934, 88,
    93, 56, 95, 194, 37, 66, 855, 71, 95, 7, 408, 464, 41, 56, 564, 488, 508],
   [83, 2, 630, 61, 62, 638, 61, 73, 494, 71, 75, 62, 198, 958, 70, 232, 174, 25, 25, 600, 268,
    15, 95, 898, 515, 464, 571, 42, 21, 47, 462, 51, 96, 338, 228, 93, 690, 56, 89, 99],
   [62, 290, 72, 844, 6, 570, 13, 16, 267, 32, 69, 65, 27, 236, 83, 482, 97, 274, 31, 55, 554, 97,
    47, 7, 480, 504, 616, 14, 824, 641, 374, 2, 478, 36, 496, 754, 848, 75, 330, 76],
   [89, 7, 22, 45, 63, 148, 91, 33, 624, 47, 96, 69, 42, 224, 56, 970, 65, 67, 96, 27, 2, 75, 83,
    69, 832, 72, 688, 92, 93, 8, 214, 77, 66, 2, 384, 59, 26, 75, 15, 81],
   [14, 62, 464, 292, 29, 340, 278, 83, 33, 374, 389, 818, 888, 37, 3, 60, 42, 40, 928, 42, 35,
    76, 69, 95, 46, 32, 864, 55, 198, 598, 73, 15, 95, 36, 814, 45, 770, 644, 634, 334],
   [56, 780, 56, 588, 93, 86, 23, 94, 19, 86, 570, 518, 108, 218, 86, 718, 63, 81, 400, 938, 96,
    43, 6, 69, 50, 76, 674, 42, 5, 810, 9, 49, 274, 25, 298, 9, 42, 363, 47, 158],
   [86, 75, 99, 554, 704, 800, 6, 670, 47, 49, 199, 85, 69, 3, 77, 63, 674, 924, 55, 22, 214, 864,
    718, 56, 67, 53, 19, 554, 1, 49, 56, 418, 13, 948, 56, 19, 65, 154, 99, 363],
   [359, 12, 130, 481, 92, 26, 624, 714, 53, 21, 743, 13, 3, 718, 33, 930, 13, 1, 79, 88, 41, 91,
    36, 30, 16, 974, 950, 9, 759, 5, 29, 63, 55, 45, 93, 56, 580, 6, 93, 452],
   [2, 19, 864, 535, 800, 3, 27, 36, 9, 974, 876, 21, 73, 11, 2, 130, 694, 16, 7, 334, 248, 25,
    86, 944, 79, 441, 92, 6, 800, 7, 93, 9, 254, 22, 930, 744, 7, 475, 498, 252],
   [640, 36, 35, 843, 718, 22, 76, 8, 17, 33, 972, 39, 96, 76, 42, 378, 89, 96, 77, 65, 344, 87,
    17, 17, 62, 86, 594, 790, 56, 2, 43, 83, 520, 864, 92, 31, 71, 845, 174, 780],
   [644, 59, 33, 671, 89, 364, 854, 21, 65, 2, 584, 570, 95, 26, 924, 87, 804, 17, 2, 168, 42, 42,
    918, 6, 96, 178, 724, 610, 818, 46, 964, 194, 97, 59, 634, 21, 630, 969, 47, 75],
   [91, 13, 224, 120, 85, 7, 92, 72, 468, 920, 949, 93, 7, 57, 13, 538, 920, 65, 9, 37, 200, 57,
    12, 31, 79, 310, 92, 888, 77, 444, 734, 59, 27, 898, 59, 33, 418, 935, 73, 272],
   [674, 93, 63, 490, 1, 63, 870, 49, 23, 984, 131, 52, 39, 99, 338, 6, 114, 69, 87, 47, 86, 12,
    52, 110, 61, 81, 984, 284, 384, 52, 804, 750, 83, 87, 174, 99, 23, 482, 7, 232],
   [53, 55, 9, 264, 73, 35, 92, 31, 35, 61, 670, 65, 66, 37, 96, 21, 86, 83, 21, 19, 79, 7, 2, 46,
    15, 59, 76, 83, 47, 7, 35, 52, 71, 7, 32, 87, 27, 680, 52, 990],
   [3317, 1880, 2740, 4310, 2681, 3375, 4704, 3031, 3115, 2878, 2609, 3321, 4142, 4670, 2130,
    3323, 4766, 2590, 3573, 2888, 3578, 3478, 4189, 1748, 2039, 2660, 4645, 3578, 4418, 2211]]

/-- The files in the order of data/cc-instances/knapsack/generate-all-instances.sh:4, 8. -/
def orlibFiles : List (List (List ℚ)) :=
  [orlib1, orlib2, orlib3, orlib4, orlib5, orlib6, orlib7, orlib8]

end Verif.Model
