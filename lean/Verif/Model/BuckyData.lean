/-! Generated by tools/gen_data.py from /repo/ababe/stru/bucky_permu_table.npy and buckyball.json. Do not edit. -/

namespace Verif

/-- rows 0-9 of ababe/stru/bucky_permu_table.npy -/
def buckyRows0 : List (List Nat) := [
  [0,1,2,3,4,5,6,7,8,9,10,11,12,13,14,15,16,17,18,19,20,21,22,23,24,25,26,27,28,29,30,31,32,33,34,35,36,37,38,39,40,41,42,43,44,45,46,47,48,49,50,51,52,53,54,55,56,57,58,59],
  [22,6,12,25,33,19,40,37,31,8,18,4,43,26,0,17,7,24,46,49,3,30,50,2,36,59,52,15,13,5,41,45,21,55,9,1,27,54,10,32,57,39,11,51,14,34,58,16,28,56,44,23,48,20,47,42,29,35,38,53],
  [50,40,43,59,55,49,57,54,45,31,46,33,51,52,22,24,37,36,58,56,25,41,44,12,27,53,48,17,26,19,39,34,30,42,8,6,15,47,18,21,35,32,4,23,0,9,38,7,13,29,14,2,28,3,16,11,5,1,10,20],
  [44,57,51,53,42,56,35,47,34,45,58,55,23,48,50,36,54,27,38,29,59,39,14,43,15,20,28,24,52,49,32,9,41,11,31,40,17,16,46,30,1,21,33,2,22,8,10,37,26,5,0,12,13,25,7,4,19,6,18,3],
  [14,35,23,20,11,29,1,16,9,34,38,42,2,28,44,27,47,15,10,5,53,32,0,51,17,3,13,36,48,56,21,8,39,4,45,57,24,7,58,41,6,30,55,12,50,31,18,54,52,19,22,43,26,59,37,33,49,40,46,25],
  [46,26,37,41,52,30,54,39,49,25,21,18,59,32,19,33,13,40,48,58,7,28,55,6,43,56,47,22,10,3,38,50,16,57,12,4,31,53,5,20,51,29,0,45,8,24,42,1,11,44,36,17,35,2,23,27,9,15,14,34],
  [58,52,54,39,48,41,47,32,56,59,30,46,53,21,49,55,26,57,28,38,37,13,42,40,51,29,16,50,18,25,10,44,7,35,43,33,45,20,19,3,23,5,22,34,31,36,11,6,4,14,27,24,1,12,2,15,8,17,0,9],
  [38,48,47,32,28,39,16,21,29,53,41,58,20,30,56,42,52,35,13,10,54,26,11,57,23,5,7,44,46,59,18,14,37,1,51,55,34,3,49,25,2,19,50,9,45,27,4,40,33,0,15,36,6,43,12,17,31,24,22,8],
  [10,28,16,21,13,32,7,30,5,20,39,38,3,41,29,11,48,1,26,18,47,52,4,35,2,19,37,14,58,53,46,0,54,6,23,42,9,25,56,59,12,49,44,8,34,15,33,57,55,22,17,27,40,51,43,24,45,36,50,31],
  [18,13,7,30,26,21,37,41,19,3,32,10,25,39,5,4,28,6,52,46,16,48,33,1,12,49,54,0,38,20,58,22,47,40,2,11,8,59,29,53,43,56,14,31,9,17,55,35,42,50,24,15,57,23,51,36,34,27,44,45]]

/-- rows 10-19 of ababe/stru/bucky_permu_table.npy -/
def buckyRows1 : List (List Nat) := [
  [55,54,59,56,57,58,51,53,50,49,48,52,45,47,46,40,39,43,42,44,41,38,36,37,31,34,35,33,32,30,29,24,28,27,25,26,22,23,21,16,15,20,18,17,19,12,14,13,10,9,8,6,11,7,1,0,3,4,5,2],
  [42,47,53,29,35,38,23,20,44,56,28,48,34,16,58,57,32,51,11,14,39,10,27,54,45,9,1,55,21,41,5,36,13,15,59,52,50,2,30,7,17,3,46,24,49,43,0,26,18,8,31,40,4,37,6,22,25,33,19,12],
  [11,16,20,5,1,10,2,3,14,29,13,28,9,7,38,35,21,23,4,0,32,18,15,47,34,8,6,42,30,39,19,27,26,17,53,48,44,12,41,37,24,25,58,36,56,51,22,52,46,31,45,57,33,54,40,50,59,55,49,43],
  [4,7,3,19,6,18,12,25,0,5,26,13,8,37,10,1,30,2,33,22,21,46,17,16,9,31,40,11,41,32,49,15,52,24,20,28,14,43,39,54,36,59,38,27,29,23,50,48,58,45,34,35,55,47,57,44,53,42,56,51],
  [33,37,25,49,40,46,43,59,22,19,52,26,31,54,18,6,41,12,55,50,30,58,24,7,8,45,57,4,39,21,56,17,48,36,3,13,0,51,32,47,27,53,10,15,5,2,44,28,38,34,9,1,42,16,35,14,20,11,29,23],
  [36,51,45,34,27,44,15,23,24,50,42,57,17,35,55,43,53,31,14,9,56,29,8,59,22,2,11,40,47,58,20,12,38,0,49,54,33,1,48,28,4,16,52,6,46,25,5,39,32,3,19,37,10,41,13,18,30,26,21,7],
  [27,23,34,9,15,14,17,2,36,44,11,35,24,1,42,51,20,45,0,8,29,5,31,53,50,12,4,57,16,38,3,43,10,22,56,47,55,6,28,13,33,7,48,40,58,59,19,32,21,25,49,54,18,39,26,46,41,52,30,37],
  [15,2,9,8,17,0,24,12,27,14,4,1,36,6,11,23,3,34,22,31,5,19,45,20,44,43,33,35,7,10,25,51,18,50,29,16,42,40,13,26,55,37,28,57,38,53,49,21,30,59,56,47,46,32,52,58,39,48,41,54],
  [17,12,8,31,24,22,36,43,15,0,33,6,27,40,4,2,25,9,50,45,19,49,34,3,14,51,55,1,37,18,59,23,46,44,5,7,11,57,26,52,42,54,13,35,10,20,56,30,41,53,29,16,58,21,48,38,32,28,39,47],
  [24,43,31,45,36,50,27,51,17,22,55,40,15,57,33,12,59,8,44,34,49,56,9,25,0,23,42,6,54,46,53,2,58,14,19,37,4,35,52,48,11,47,26,1,18,3,29,41,39,20,5,7,38,30,28,10,21,13,32,16]]

/-- rows 20-29 of ababe/stru/bucky_permu_table.npy -/
def buckyRows2 : List (List Nat) := [
  [8,15,17,2,0,9,4,1,12,24,14,27,6,11,36,31,23,22,5,3,34,20,19,45,33,7,10,43,35,44,16,25,29,18,50,51,40,13,42,38,26,28,57,37,55,49,21,53,47,30,46,59,32,56,39,52,58,54,48,41],
  [31,17,24,12,22,8,33,6,43,36,0,15,40,4,27,45,2,50,19,25,9,3,49,34,55,37,18,51,1,14,7,59,5,46,44,23,57,26,11,10,52,13,35,54,42,56,30,20,16,41,58,53,21,29,32,48,38,47,28,39],
  [45,24,36,43,50,31,55,40,51,27,22,17,57,33,15,34,12,44,49,59,8,25,56,9,42,54,46,23,6,0,37,53,19,58,14,2,35,52,4,18,48,26,1,47,11,29,41,3,7,39,38,20,30,5,21,28,10,16,13,32],
  [34,36,27,51,44,45,42,57,23,15,50,24,35,55,17,9,43,14,56,53,31,59,29,8,11,47,58,2,40,22,54,20,49,38,0,12,1,48,33,46,28,52,6,16,4,5,39,25,37,32,10,3,41,19,30,13,18,7,26,21],
  [9,27,15,23,14,34,11,35,2,17,44,36,1,42,24,8,51,0,29,20,45,53,5,31,4,16,38,12,57,50,47,3,56,10,22,43,6,28,55,58,13,48,40,7,33,19,32,59,54,21,18,25,39,49,41,26,46,37,52,30],
  [19,4,6,7,18,3,26,13,25,12,5,0,37,10,8,22,1,33,21,30,2,16,46,17,40,41,32,31,11,9,28,49,20,52,24,15,43,39,14,29,54,38,27,59,36,50,48,23,35,58,55,45,47,34,53,57,44,51,42,56],
  [49,33,40,37,46,25,52,26,59,43,19,22,54,18,31,50,6,55,30,41,12,7,58,24,57,39,21,45,4,8,13,56,3,48,36,17,51,32,0,5,47,10,15,53,27,44,28,2,1,38,42,34,16,9,20,35,14,23,11,29],
  [56,55,57,54,58,59,48,52,53,51,49,50,47,46,45,44,40,42,41,39,43,37,38,36,35,32,30,34,33,31,26,29,25,28,27,24,23,21,22,19,16,18,17,20,15,14,13,12,6,10,11,9,7,8,3,1,0,2,4,5],
  [29,42,35,47,38,53,28,48,20,23,56,44,16,58,34,14,57,11,39,32,51,54,10,27,1,21,41,9,55,45,52,5,59,13,15,36,2,30,50,49,7,46,24,3,17,0,26,43,40,18,4,8,37,31,25,6,22,12,33,19],
  [5,11,1,16,10,20,13,28,3,2,29,14,7,38,9,0,35,4,32,21,23,47,18,15,6,30,39,8,42,34,48,19,53,26,17,27,12,41,44,56,37,58,36,25,24,22,52,51,57,46,33,31,54,45,59,40,50,43,55,49]]

/-- rows 30-39 of ababe/stru/bucky_permu_table.npy -/
def buckyRows3 : List (List Nat) := [
  [21,10,13,28,32,16,39,38,30,7,20,5,41,29,3,18,11,26,47,48,1,35,52,4,37,58,53,19,14,2,42,46,23,54,6,0,25,56,9,34,59,44,8,49,12,33,57,15,27,55,40,22,51,17,45,43,24,31,36,50],
  [30,18,26,13,21,7,32,10,41,37,3,19,39,5,25,46,4,52,16,28,6,1,48,33,54,38,20,49,0,12,11,58,2,47,40,22,59,29,8,9,53,14,31,56,43,55,35,17,15,42,57,50,23,24,34,51,36,45,27,44],
  [41,46,52,26,30,37,21,18,39,54,25,49,32,19,59,58,33,48,7,13,40,6,28,55,47,10,3,56,22,43,4,38,12,16,57,50,53,5,31,8,20,0,45,29,51,42,1,24,17,11,35,44,2,36,9,23,27,34,15,14],
  [39,58,48,52,41,54,30,46,32,47,59,56,21,49,53,38,55,28,37,26,57,40,13,42,16,18,25,29,50,51,33,10,43,7,35,44,20,19,45,31,3,22,34,5,23,11,6,36,24,4,1,14,12,27,8,2,15,9,17,0],
  [32,38,28,48,39,47,41,58,21,16,53,29,30,56,20,10,42,13,54,52,35,57,26,11,7,46,59,5,44,23,55,18,51,37,1,14,3,49,34,45,25,50,9,19,2,4,40,27,36,33,6,0,43,15,31,12,17,8,24,22],
  [52,39,41,58,54,48,59,56,46,30,47,32,49,53,21,26,38,37,57,55,28,42,40,13,25,50,51,18,29,16,44,33,35,43,7,10,19,45,20,23,31,34,5,22,3,6,36,11,14,24,12,4,27,1,15,8,2,0,9,17],
  [48,32,39,38,47,28,53,29,58,41,16,21,56,20,30,52,10,54,35,42,13,11,57,26,59,44,23,46,5,7,14,55,1,51,37,18,49,34,3,2,45,9,19,50,25,40,27,4,0,36,43,33,15,6,17,31,12,22,8,24],
  [28,21,32,10,16,13,20,5,38,39,7,30,29,3,41,48,18,47,1,11,26,4,35,52,53,14,2,58,19,37,0,42,6,23,54,46,56,9,25,12,34,8,49,44,59,57,15,33,22,27,51,55,17,40,24,45,43,50,31,36],
  [13,30,21,18,7,26,3,19,10,32,37,41,5,25,39,28,46,16,6,4,52,33,1,48,20,0,12,38,49,54,22,11,40,2,47,58,29,8,59,43,9,31,56,14,53,35,17,55,50,15,23,42,24,57,36,34,51,44,45,27],
  [26,41,30,46,37,52,25,49,18,21,54,39,19,59,32,13,58,7,40,33,48,55,6,28,3,22,43,10,56,47,50,4,57,12,16,38,5,31,53,51,8,45,29,0,20,1,24,42,44,17,2,11,36,35,27,9,23,14,34,15]]

/-- rows 40-49 of ababe/stru/bucky_permu_table.npy -/
def buckyRows4 : List (List Nat) := [
  [40,59,49,50,43,55,31,45,33,46,57,54,22,51,52,37,56,25,36,24,58,44,12,41,19,17,27,26,53,48,34,6,42,8,30,39,18,15,47,35,0,23,32,4,21,7,9,38,29,2,3,13,14,28,11,5,16,10,20,1],
  [57,53,56,44,51,42,45,34,55,58,35,47,50,23,48,54,29,59,27,36,38,14,43,39,49,24,15,52,20,28,9,40,11,31,41,32,46,17,16,1,22,2,21,33,30,37,8,10,5,12,25,26,0,13,4,19,7,18,3,6],
  [35,20,29,14,23,11,34,9,42,38,1,16,44,2,28,47,5,53,15,27,10,0,51,32,56,36,17,48,3,13,8,57,4,45,39,21,58,24,7,6,50,12,30,55,41,54,31,18,19,43,59,52,22,26,33,49,37,46,25,40],
  [1,3,5,0,2,4,9,8,11,10,6,7,14,12,13,16,19,20,17,15,18,22,23,21,29,27,24,28,25,26,31,35,33,34,32,30,38,36,37,40,44,43,41,42,39,47,45,46,49,51,53,48,50,52,55,56,54,58,59,57],
  [6,25,19,22,12,33,8,31,4,18,40,37,0,43,26,7,49,3,24,17,46,50,2,30,5,15,36,13,59,52,45,1,55,9,21,41,10,27,54,57,14,51,39,11,32,16,34,58,56,23,20,28,44,48,42,29,47,38,53,35],
  [12,31,22,17,8,24,0,15,6,33,36,43,4,27,40,25,45,19,9,2,50,34,3,49,18,1,14,37,51,55,23,7,44,5,46,59,26,11,57,42,10,35,54,13,52,30,20,56,53,16,21,41,29,58,38,32,48,39,47,28],
  [43,45,50,24,31,36,22,17,40,55,27,51,33,15,57,59,34,49,8,12,44,9,25,56,46,6,0,54,23,42,2,37,14,19,58,53,52,4,35,11,18,1,47,26,48,41,3,29,20,7,30,39,5,38,10,21,28,32,16,13],
  [51,34,44,36,45,27,50,24,57,42,15,23,55,17,35,53,9,56,31,43,14,8,59,29,58,40,22,47,2,11,12,54,0,49,38,20,48,33,1,4,46,6,16,52,28,39,25,5,3,37,41,32,19,10,18,30,13,21,7,26],
  [23,9,14,27,34,15,44,36,35,11,17,2,42,24,1,20,8,29,45,51,0,31,53,5,38,57,50,16,12,4,43,47,22,56,10,3,28,55,6,33,58,40,7,48,13,32,59,19,25,54,39,21,49,18,46,41,26,30,37,52],
  [2,8,0,15,9,17,14,27,1,4,24,12,11,36,6,3,31,5,34,23,22,45,20,19,10,35,44,7,43,33,51,16,50,29,18,25,13,42,40,55,38,57,37,28,26,21,53,49,59,47,32,30,56,46,58,39,52,41,54,48]]

/-- rows 50-59 of ababe/stru/bucky_permu_table.npy -/
def buckyRows5 : List (List Nat) := [
  [3,0,4,1,5,2,10,11,7,6,9,8,13,14,12,19,15,18,20,16,17,23,21,22,26,28,29,25,27,24,35,30,34,32,33,31,37,38,36,44,39,42,43,41,40,46,47,45,51,48,52,49,53,50,56,54,55,59,57,58],
  [25,22,33,6,19,12,18,4,37,40,8,31,26,0,43,49,17,46,3,7,24,2,30,50,52,13,5,59,15,36,1,41,9,21,55,45,54,10,27,14,32,11,51,39,57,58,16,34,23,28,48,56,20,44,29,47,42,53,35,38],
  [59,50,55,40,49,43,46,33,54,57,31,45,52,22,51,56,24,58,25,37,36,12,41,44,48,26,19,53,17,27,6,39,8,30,42,34,47,18,15,0,21,4,23,32,35,38,7,9,2,13,28,29,3,14,5,16,11,20,1,10],
  [53,44,42,57,56,51,58,55,47,35,45,34,48,50,23,29,36,38,59,54,27,43,39,14,28,52,49,20,24,15,40,32,31,41,11,9,16,46,17,22,30,33,2,21,1,10,37,8,12,26,13,5,25,0,19,7,4,3,6,18],
  [20,14,11,35,29,23,38,42,16,1,34,9,28,44,2,5,27,10,53,47,15,51,32,0,13,48,56,3,36,17,57,21,45,39,4,8,7,58,24,50,41,55,12,30,6,18,54,31,43,52,26,19,59,22,49,37,33,25,40,46],
  [47,29,38,42,53,35,56,44,48,28,23,20,58,34,16,32,14,39,51,57,11,27,54,10,41,55,45,21,9,1,36,52,15,59,13,5,30,50,2,17,49,24,3,46,7,26,43,0,8,40,37,18,31,4,22,25,6,19,12,33],
  [16,5,10,11,20,1,29,14,28,13,2,3,38,9,7,21,0,32,23,35,4,15,47,18,39,42,34,30,8,6,27,48,17,53,26,19,41,44,12,24,56,36,25,58,37,52,51,22,31,57,54,46,45,33,50,59,40,49,43,55],
  [7,19,18,4,3,6,5,0,13,26,12,25,10,8,37,30,22,21,2,1,33,17,16,46,32,11,9,41,31,40,15,28,24,20,52,49,39,14,43,36,29,27,59,38,54,48,23,50,45,35,47,58,34,55,44,53,57,56,51,42],
  [37,49,46,33,25,40,19,22,26,52,43,59,18,31,54,41,50,30,12,6,55,24,7,58,21,4,8,39,45,57,17,13,36,3,48,56,32,0,51,27,5,15,53,10,47,28,2,44,34,1,16,38,9,42,14,20,35,29,23,11],
  [54,56,58,55,59,57,49,50,52,48,51,53,46,45,47,39,44,41,43,40,42,36,37,38,30,33,31,32,34,35,24,26,27,25,28,29,21,22,23,15,19,17,20,18,16,13,12,14,9,6,7,10,8,11,0,3,1,5,2,4]]

/-- rows 60-69 of ababe/stru/bucky_permu_table.npy -/
def buckyRows6 : List (List Nat) := [
  [23,11,14,29,35,20,42,38,34,9,16,1,44,28,2,15,10,27,47,53,5,32,51,0,36,56,48,17,13,3,39,45,21,57,8,4,24,58,7,30,55,41,6,50,12,31,54,18,26,59,43,22,52,19,46,40,25,33,37,49],
  [2,4,0,5,1,3,11,10,9,8,7,6,14,13,12,17,18,15,16,20,19,21,23,22,27,29,28,24,26,25,32,34,30,35,31,33,36,38,37,41,42,39,40,44,43,45,47,46,52,53,51,50,48,49,58,57,59,55,54,56],
  [12,33,22,19,6,25,4,18,8,31,37,40,0,26,43,24,46,17,7,3,49,30,2,50,15,5,13,36,52,59,21,9,41,1,45,55,27,10,54,39,11,32,57,14,51,34,16,58,48,20,23,44,28,56,38,35,53,42,47,29],
  [43,55,50,49,40,59,33,46,31,45,54,57,22,52,51,36,58,24,37,25,56,41,12,44,17,19,26,27,48,53,30,8,39,6,34,42,15,18,47,32,4,21,35,0,23,9,7,38,28,3,2,14,13,29,10,1,20,11,16,5],
  [51,42,44,56,57,53,55,58,45,34,47,35,50,48,23,27,38,36,54,59,29,39,43,14,24,49,52,15,28,20,41,31,32,40,9,11,17,46,16,21,33,30,1,22,2,8,37,10,13,25,12,0,26,5,18,6,3,4,7,19],
  [6,18,19,3,4,7,0,5,12,25,13,26,8,10,37,33,21,22,1,2,30,16,17,46,31,9,11,40,32,41,20,24,28,15,49,52,43,14,39,38,27,29,54,36,59,50,23,48,47,34,45,55,35,58,42,51,56,57,53,44],
  [40,46,49,25,33,37,22,19,43,59,26,52,31,18,54,55,30,50,6,12,41,7,24,58,45,8,4,57,21,39,3,36,13,17,56,48,51,0,32,10,15,5,47,27,53,44,2,28,16,9,34,42,1,38,11,23,29,35,20,14],
  [57,58,56,59,55,54,50,49,51,53,52,48,45,46,47,42,41,44,40,43,39,37,36,38,34,31,33,35,30,32,25,27,26,24,29,28,23,22,21,18,17,19,16,15,20,14,12,13,7,8,9,11,6,10,4,2,5,1,3,0],
  [35,38,29,53,42,47,44,56,23,20,48,28,34,58,16,11,39,14,57,51,32,54,27,10,9,45,55,1,41,21,59,15,52,36,5,13,2,50,30,46,24,49,7,17,3,0,43,26,37,31,8,4,40,18,33,12,19,6,25,22],
  [1,10,5,20,11,16,14,29,2,3,28,13,9,38,7,4,32,0,35,23,21,47,15,18,8,34,42,6,39,30,53,17,48,27,19,26,12,44,41,58,36,56,37,24,25,22,51,52,54,45,31,33,57,46,55,43,49,40,59,50]]

/-- rows 70-79 of ababe/stru/bucky_permu_table.npy -/
def buckyRows7 : List (List Nat) := [
  [37,52,46,30,26,41,18,21,25,49,39,54,19,32,59,40,48,33,13,7,58,28,6,55,22,3,10,43,47,56,16,12,38,4,50,57,31,5,53,29,0,20,51,8,45,24,1,42,35,2,17,36,11,44,14,15,34,27,23,9],
  [54,48,58,41,52,39,46,30,59,56,32,47,49,21,53,57,28,55,26,37,38,13,40,42,50,25,18,51,16,29,7,43,10,33,44,35,45,19,20,5,22,3,23,31,34,36,6,11,1,12,24,27,4,14,0,17,9,15,2,8],
  [47,28,38,39,48,32,58,41,53,29,21,16,56,30,20,35,13,42,52,54,10,26,57,11,44,59,46,23,7,5,37,51,18,55,14,1,34,49,3,19,50,25,2,45,9,27,40,4,6,43,36,15,33,0,22,24,8,17,12,31],
  [16,13,10,32,28,21,38,39,20,5,30,7,29,41,3,1,26,11,48,47,18,52,35,4,14,53,58,2,37,19,54,23,46,42,0,6,9,56,25,49,44,59,12,34,8,15,57,33,40,51,27,17,55,22,50,36,31,24,43,45],
  [7,26,18,21,13,30,10,32,3,19,41,37,5,39,25,6,52,4,28,16,46,48,1,33,0,20,38,12,54,49,47,2,58,11,22,40,8,29,59,56,14,53,43,9,31,17,35,55,57,23,15,24,42,50,44,27,45,36,51,34],
  [59,57,55,58,54,56,52,48,49,50,53,51,46,47,45,43,42,40,39,41,44,38,37,36,33,30,32,31,35,34,28,25,29,26,24,27,22,21,23,20,18,16,15,19,17,12,13,14,11,7,6,8,10,9,5,4,2,0,1,3],
  [53,35,42,38,47,29,48,28,56,44,20,23,58,16,34,51,11,57,32,39,14,10,54,27,55,41,21,45,1,9,13,59,5,52,36,15,50,30,2,3,46,7,17,49,24,43,26,0,4,37,40,31,18,8,19,33,12,22,6,25],
  [20,1,11,10,16,5,28,13,29,14,3,2,38,7,9,23,4,35,21,32,0,18,47,15,42,39,30,34,6,8,26,53,19,48,27,17,44,41,12,25,58,37,24,56,36,51,52,22,33,54,57,45,46,31,49,55,43,50,40,59],
  [3,6,4,18,7,19,13,26,5,0,25,12,10,37,8,2,33,1,30,21,22,46,16,17,11,32,41,9,40,31,52,20,49,28,15,24,14,39,43,59,38,54,36,29,27,23,48,50,55,47,35,34,58,45,56,42,51,44,57,53],
  [25,40,33,46,37,49,26,52,19,22,59,43,18,54,31,12,55,6,41,30,50,58,7,24,4,21,39,8,57,45,48,3,56,13,17,36,0,32,51,53,10,47,27,5,15,2,28,44,42,16,1,9,38,34,29,11,23,14,35,20]]

/-- rows 80-89 of ababe/stru/bucky_permu_table.npy -/
def buckyRows8 : List (List Nat) := [
  [45,27,36,44,51,34,57,42,50,24,23,15,55,35,17,31,14,43,53,56,9,29,59,8,40,58,47,22,11,2,38,49,20,54,12,0,33,48,1,16,52,28,4,46,6,25,39,5,10,41,37,19,32,3,21,26,7,18,13,30],
  [34,15,27,14,23,9,35,11,44,36,2,17,42,1,24,45,0,51,20,29,8,5,53,31,57,38,16,50,4,12,10,56,3,47,43,22,55,28,6,7,48,13,33,58,40,59,32,19,18,39,54,49,21,25,30,52,37,46,26,41],
  [9,17,15,0,2,8,1,4,14,27,12,24,11,6,36,34,22,23,3,5,31,19,20,45,35,10,7,44,33,43,18,29,25,16,51,50,42,13,40,37,28,26,55,38,57,53,21,49,46,32,47,56,30,59,41,48,54,58,52,39],
  [8,24,17,22,12,31,6,33,0,15,43,36,4,40,27,9,50,2,25,19,45,49,3,34,1,18,37,14,55,51,46,5,59,7,23,44,11,26,57,54,13,52,42,10,35,20,30,56,58,21,16,29,41,53,39,28,47,38,48,32],
  [31,36,24,50,43,45,40,55,22,17,51,27,33,57,15,8,44,12,59,49,34,56,25,9,6,46,54,0,42,23,58,19,53,37,2,14,4,52,35,47,26,48,11,18,1,3,41,29,38,30,7,5,39,20,32,13,16,10,28,21],
  [17,0,8,9,15,2,27,14,24,12,1,4,36,11,6,22,5,31,23,34,3,20,45,19,43,44,35,33,10,7,29,50,16,51,25,18,40,42,13,28,57,38,26,55,37,49,53,21,32,56,59,46,47,30,48,54,41,52,39,58],
  [24,22,31,8,17,12,15,0,36,43,6,33,27,4,40,50,19,45,2,9,25,3,34,49,51,14,1,55,18,37,5,44,7,23,59,46,57,11,26,13,35,10,52,42,54,56,20,30,21,29,53,58,16,41,28,47,39,48,32,38],
  [36,50,45,31,24,43,17,22,27,51,40,55,15,33,57,44,49,34,12,8,59,25,9,56,23,0,6,42,46,54,19,14,37,2,53,58,35,4,52,26,1,18,48,11,47,29,3,41,30,5,20,38,7,39,13,16,32,28,21,10],
  [27,44,34,45,36,51,24,50,15,23,57,42,17,55,35,14,56,9,43,31,53,59,8,29,2,22,40,11,58,47,49,0,54,12,20,38,1,33,48,52,6,46,28,4,16,5,25,39,41,19,3,10,37,32,26,7,21,13,30,18],
  [15,14,9,34,27,23,36,44,17,2,35,11,24,42,1,0,29,8,51,45,20,53,31,5,12,50,57,4,38,16,56,22,47,43,3,10,6,55,28,48,40,58,13,33,7,19,59,32,39,49,25,18,54,21,52,37,30,26,41,46]]

/-- rows 90-99 of ababe/stru/bucky_permu_table.npy -/
def buckyRows9 : List (List Nat) := [
  [4,5,3,2,0,1,8,9,6,7,11,10,12,14,13,18,20,19,15,17,16,23,22,21,25,24,27,26,29,28,34,33,35,31,30,32,37,36,38,42,43,44,39,40,41,46,45,47,53,50,49,52,51,48,57,59,58,54,56,55],
  [33,19,25,12,22,6,31,8,40,37,4,18,43,0,26,46,3,49,17,24,7,2,50,30,59,36,15,52,5,13,9,55,1,45,41,21,54,27,10,11,51,14,32,57,39,58,34,16,20,44,56,48,23,28,35,53,38,47,29,42],
  [55,49,59,43,50,40,45,31,57,54,33,46,51,22,52,58,25,56,24,36,37,12,44,41,53,27,17,48,19,26,8,42,6,34,39,30,47,15,18,4,23,0,21,35,32,38,9,7,3,14,29,28,2,13,1,20,10,16,5,11],
  [42,56,53,51,44,57,34,45,35,47,55,58,23,50,48,38,59,29,36,27,54,43,14,39,20,15,24,28,49,52,31,11,40,9,32,41,16,17,46,33,2,22,30,1,21,10,8,37,25,0,5,13,12,26,6,3,18,7,19,4],
  [11,29,20,23,14,35,9,34,1,16,42,38,2,44,28,10,53,5,27,15,47,51,0,32,3,17,36,13,56,48,45,4,57,8,21,39,7,24,58,55,12,50,41,6,30,18,31,54,59,22,19,26,43,52,40,25,46,37,49,33],
  [13,32,21,16,10,28,5,20,7,30,38,39,3,29,41,26,47,18,11,1,48,35,4,52,19,2,14,37,53,58,23,6,42,0,46,54,25,9,56,44,8,34,59,12,49,33,15,57,51,17,22,40,27,55,36,31,50,43,45,24],
  [26,21,30,7,18,13,19,3,37,41,10,32,25,5,39,52,16,46,4,6,28,1,33,48,49,12,0,54,20,38,2,40,11,22,58,47,59,8,29,14,31,9,53,43,56,55,17,35,23,24,50,57,15,42,27,45,44,51,34,36],
  [52,30,41,37,46,26,49,25,54,39,18,21,59,19,32,48,7,58,33,40,13,6,55,28,56,43,22,47,3,10,12,57,4,50,38,16,53,31,5,0,45,8,20,51,29,42,24,1,2,36,44,35,17,11,15,34,14,23,9,27],
  [48,41,39,54,58,52,56,59,47,32,46,30,53,49,21,28,37,38,55,57,26,40,42,13,29,51,50,16,25,18,43,35,33,44,10,7,20,45,19,22,34,31,3,23,5,11,36,6,12,27,14,1,24,4,17,9,0,2,8,15],
  [28,39,32,47,38,48,29,53,16,21,58,41,20,56,30,13,54,10,42,35,52,57,11,26,5,23,44,7,59,46,51,1,55,14,18,37,3,34,49,50,9,45,25,2,19,4,27,40,43,15,0,6,36,33,24,8,22,12,31,17]]

/-- rows 100-109 of ababe/stru/bucky_permu_table.npy -/
def buckyRows10 : List (List Nat) := [
  [41,54,52,48,39,58,32,47,30,46,56,59,21,53,49,37,57,26,38,28,55,42,13,40,18,16,29,25,51,50,35,7,44,10,33,43,19,20,45,34,5,23,31,3,22,6,11,36,27,1,4,12,14,24,9,0,17,8,15,2],
  [39,47,48,28,32,38,21,16,41,58,29,53,30,20,56,54,35,52,10,13,42,11,26,57,46,7,5,59,23,44,1,37,14,18,55,51,49,3,34,9,19,2,45,25,50,40,4,27,15,6,33,43,0,36,8,22,24,31,17,12],
  [32,16,28,13,21,10,30,7,39,38,5,20,41,3,29,47,1,48,18,26,11,4,52,35,58,37,19,53,2,14,6,54,0,46,42,23,56,25,9,8,49,12,34,59,44,57,33,15,17,40,55,51,22,27,31,50,36,45,24,43],
  [21,7,13,26,30,18,41,37,32,10,19,3,39,25,5,16,6,28,46,52,4,33,48,1,38,54,49,20,12,0,40,47,22,58,11,2,29,59,8,31,56,43,9,53,14,35,55,17,24,57,42,23,50,15,45,44,27,34,36,51],
  [30,37,26,52,41,46,39,54,21,18,49,25,32,59,19,7,40,13,58,48,33,55,28,6,10,47,56,3,43,22,57,16,50,38,4,12,5,53,31,45,29,51,8,20,0,1,42,24,36,35,11,2,44,17,34,14,15,9,27,23],
  [49,43,40,55,59,50,54,57,46,33,45,31,52,51,22,25,36,37,56,58,24,44,41,12,26,48,53,19,27,17,42,30,34,39,6,8,18,47,15,23,32,35,0,21,4,7,38,9,14,28,13,3,29,2,20,10,1,5,11,16],
  [56,51,57,42,53,44,47,35,58,55,34,45,48,23,50,59,27,54,29,38,36,14,39,43,52,28,20,49,15,24,11,41,9,32,40,31,46,16,17,2,21,1,22,30,33,37,10,8,0,13,26,25,5,12,3,18,6,19,4,7],
  [29,23,35,11,20,14,16,1,38,42,9,34,28,2,44,53,15,47,5,10,27,0,32,51,48,13,3,56,17,36,4,39,8,21,57,45,58,7,24,12,30,6,50,41,55,54,18,31,22,26,52,59,19,43,25,46,40,49,33,37],
  [5,2,1,4,3,0,7,6,10,11,8,9,13,12,14,20,17,16,19,18,15,22,21,23,28,26,25,29,24,27,33,32,31,30,35,34,38,37,36,43,41,40,44,39,42,47,46,45,50,52,48,53,49,51,59,58,57,56,55,54],
  [19,12,6,33,25,22,37,40,18,4,31,8,26,43,0,3,24,7,49,46,17,50,30,2,13,52,59,5,36,15,55,21,45,41,1,9,10,54,27,51,39,57,14,32,11,16,58,34,44,48,28,20,56,23,53,38,35,29,42,47]]

/-- rows 110-119 of ababe/stru/bucky_permu_table.npy -/
def buckyRows11 : List (List Nat) := [
  [22,8,12,24,31,17,43,36,33,6,15,0,40,27,4,19,9,25,45,50,2,34,49,3,37,55,51,18,14,1,44,46,23,59,7,5,26,57,11,35,54,42,10,52,13,30,56,20,29,58,41,21,53,16,47,39,28,32,38,48],
  [50,31,43,36,45,24,51,27,55,40,17,22,57,15,33,49,8,59,34,44,12,9,56,25,54,42,23,46,0,6,14,58,2,53,37,19,52,35,4,1,47,11,18,48,26,41,29,3,5,38,39,30,20,7,16,32,13,21,10,28],
  [44,45,51,27,34,36,23,15,42,57,24,50,35,17,55,56,31,53,9,14,43,8,29,59,47,11,2,58,22,40,0,38,12,20,54,49,48,1,33,6,16,4,46,28,52,39,5,25,19,10,32,41,3,37,7,21,26,30,18,13],
  [14,34,23,15,9,27,2,17,11,35,36,44,1,24,42,29,45,20,8,0,51,31,5,53,16,4,12,38,50,57,22,10,43,3,47,56,28,6,55,40,7,33,58,13,48,32,19,59,49,18,21,39,25,54,37,30,52,41,46,26],
  [0,9,2,17,8,15,12,24,4,1,27,14,6,36,11,5,34,3,31,22,23,45,19,20,7,33,43,10,44,35,50,18,51,25,16,29,13,40,42,57,37,55,38,26,28,21,49,53,56,46,30,32,59,47,54,41,48,39,58,52],
  [10,20,16,1,5,11,3,2,13,28,14,29,7,9,38,32,23,21,0,4,35,15,18,47,30,6,8,39,34,42,17,26,27,19,48,53,41,12,44,36,25,24,56,37,58,52,22,51,45,33,46,54,31,57,43,49,55,59,50,40],
  [18,3,7,6,19,4,25,12,26,13,0,5,37,8,10,21,2,30,22,33,1,17,46,16,41,40,31,32,9,11,24,52,15,49,28,20,39,43,14,27,59,36,29,54,38,48,50,23,34,55,58,47,45,35,51,56,42,53,44,57],
  [46,25,37,40,49,33,59,43,52,26,22,19,54,31,18,30,12,41,50,55,6,24,58,7,39,57,45,21,8,4,36,48,17,56,13,3,32,51,0,15,53,27,5,47,10,28,44,2,9,42,38,16,34,1,23,29,11,20,14,35],
  [58,59,54,57,56,55,53,51,48,52,50,49,47,45,46,41,43,39,44,42,40,36,38,37,32,35,34,30,31,33,27,28,24,29,26,25,21,23,22,17,20,15,19,16,18,13,14,12,8,11,10,7,9,6,2,5,4,3,0,1],
  [38,53,47,35,29,42,20,23,28,48,44,56,16,34,58,39,51,32,14,11,57,27,10,54,21,1,9,41,45,55,15,13,36,5,52,59,30,2,50,24,3,17,49,7,46,26,0,43,31,4,18,37,8,40,12,19,33,25,22,6]]

/-- `_perm_table` (ababe/stru/buckyball.py:18-20, data ababe/stru/bucky_permu_table.npy, shape (120,60)), row by row. -/
def buckyPermTable : List (List Nat) :=
  buckyRows0 ++ buckyRows1 ++ buckyRows2 ++ buckyRows3 ++ buckyRows4 ++ buckyRows5 ++ buckyRows6 ++ buckyRows7 ++ buckyRows8 ++ buckyRows9 ++ buckyRows10 ++ buckyRows11

/-- `_buckyball["positions"]` (ababe/stru/buckyball.py:13-16, data ababe/stru/buckyball.json), in file order,
in units of 1e-9 (all entries have nine decimals). -/
def buckyPositionsNano : List (Nat × Nat × Nat) := [
  (336431384, 848417222, 365031004),
  (798572183, 764873743, 416664064),
  (583336890, 201427042, 764874458),
  (848416805, 365032464, 663567305),
  (151583701, 365031481, 663567841),
  (416665584, 201427370, 764873743),
  (201427281, 764873147, 416663945),
  (100000232, 499999255, 580236733),
  (663566530, 848416686, 365031302),
  (900000036, 500001252, 580235660),
  (336432606, 151583344, 365031660),
  (235126078, 416663080, 201428205),
  (499999702, 580235839, 100000113),
  (764874101, 416664243, 201426357),
  (663568079, 151583701, 365031660),
  (235125899, 583335221, 201427996),
  (634967446, 663567185, 151583105),
  (848416388, 365032017, 336431742),
  (580236912, 100000232, 500000715),
  (201426923, 235125303, 416664362),
  (583335519, 798572540, 764873505),
  (634968340, 663568139, 848416209),
  (499999762, 580236614, 899999857),
  (365031362, 663567960, 848417580),
  (416663557, 798572123, 764873743),
  (419763178, 899999738, 499999255),
  (798573017, 764874756, 583335578),
  (764874160, 416664839, 798572004),
  (365032524, 336432785, 848416924),
  (151583552, 634968042, 663568199),
  (634969115, 336432666, 848416328),
  (235127062, 416664541, 798573077),
  (201427370, 764873266, 583336055),
  (580235481, 899999976, 499999464),
  (848417521, 634969473, 663567424),
  (419764578, 100000054, 500000536),
  (151582479, 365030527, 336432606),
  (365030885, 663567305, 151583701),
  (764873028, 583335459, 201426923),
  (798572659, 235126823, 416663945),
  (634968638, 336432099, 151582420),
  (583336413, 201427877, 235126287),
  (416664481, 201427490, 235126466),
  (365031660, 336431861, 151583761),
  (500000238, 419763476, 100000173),
  (583334446, 798572659, 235126227),
  (899999738, 500000775, 419763237),
  (663568556, 151582778, 634968996),
  (201427758, 235126287, 583335936),
  (151583105, 634967566, 336432666),
  (235125959, 583335817, 798573613),
  (336431921, 848416328, 634968340),
  (663567424, 848416686, 634968221),
  (764873922, 583336949, 798571825),
  (500000298, 419764161, 899999857),
  (336433470, 151583284, 634968758),
  (99999964, 499998778, 419764280),
  (416663140, 798572958, 235125542),
  (848416328, 634968519, 336432159),
  (798572719, 235126823, 583336055)]

end Verif
