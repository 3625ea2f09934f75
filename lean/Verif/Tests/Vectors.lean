import Verif.Model.FromText

/-!
# The test vectors of t/test-str_to_rdata.c and t/test-rdata.c, run on the model

Generated by tools/gen_vectors.py.  These are tests of the model (that it agrees with what the project expects of the code),
not proofs of properties.
-/

namespace Wdns.Vectors
open Outcome

example : strToRdata [48, 32, 48, 32, 49, 32, 100, 50, 97, 98, 100, 101, 50, 52, 48, 100, 55, 99, 100, 51, 101, 101, 54, 98, 52, 98, 50, 56, 99, 53, 52, 100, 102, 48, 51, 52, 98, 57, 55, 57, 56, 51, 97, 49, 100, 49, 54, 101, 56, 97, 52, 49, 48, 101, 52, 53, 54, 49, 99, 98, 49, 48, 54, 54, 49, 56, 101, 57, 55, 49] 52 1 = ok [0, 0, 1, 210, 171, 222, 36, 13, 124, 211, 238, 107, 75, 40, 197, 77, 240, 52, 185, 121, 131, 161, 209, 110, 138, 65, 14, 69, 97, 203, 16, 102, 24, 233, 113] := by decide +kernel
example : strToRdata [50, 53, 54, 32, 51, 32, 53, 32, 65, 81, 80, 83, 75, 109, 121, 110, 102, 122, 87, 52, 107, 121, 66, 118, 48, 49, 53, 77, 85, 71, 50, 68, 101, 73, 81, 51, 32, 67, 98, 108, 43, 66, 66, 90, 72, 52, 98, 47, 48, 80, 89, 49, 107, 120, 107, 109, 118, 72, 106, 99, 90, 99, 56, 110, 111, 32, 107, 102, 122, 106, 51, 49, 71, 97, 106, 73, 81, 75, 89, 43, 53, 67, 112, 116, 76, 114, 51, 98, 117, 88, 65, 49, 48, 104, 32, 87, 113, 84, 107, 70, 55, 72, 54, 82, 102, 111, 82, 113, 88, 81, 101, 111, 103, 109, 77, 72, 102, 112, 102, 116, 102, 54, 122, 32, 77, 118, 49, 76, 121, 66, 85, 103, 105, 97, 55, 122, 97, 54, 90, 69, 122, 79, 74, 66, 79, 122, 116, 121, 118, 104, 106, 76, 32, 55, 52, 50, 105, 85, 47, 84, 112, 80, 83, 69, 68, 104, 109, 50, 83, 78, 75, 76, 105, 106, 102, 85, 112, 112, 110, 49, 85, 32, 97, 78, 118, 118, 52, 119, 61, 61] 48 1 = ok [1, 0, 3, 5, 1, 3, 210, 42, 108, 167, 127, 53, 184, 147, 32, 111, 211, 94, 76, 80, 109, 131, 120, 132, 55, 9, 185, 126, 4, 22, 71, 225, 191, 244, 61, 141, 100, 198, 73, 175, 30, 55, 25, 115, 201, 232, 145, 252, 227, 223, 81, 154, 140, 132, 10, 99, 238, 66, 166, 210, 235, 221, 187, 151, 3, 93, 33, 90, 164, 228, 23, 177, 250, 69, 250, 17, 169, 116, 30, 162, 9, 140, 29, 250, 95, 181, 254, 179, 50, 253, 75, 200, 21, 32, 137, 174, 243, 107, 166, 68, 204, 226, 65, 59, 59, 114, 190, 24, 203, 239, 141, 162, 83, 244, 233, 61, 33, 3, 134, 109, 146, 52, 162, 226, 141, 245, 41, 166, 125, 84, 104, 219, 239, 227] := by decide +kernel
example : strToRdata [50, 53, 54, 32, 51, 32, 53, 32, 65, 81, 80, 83, 75, 109, 121, 110, 102, 122, 87, 52, 107, 121, 66, 118, 48, 49, 53, 77, 85, 71, 50, 68, 101, 73, 81, 51, 32, 67, 98, 108, 43, 66, 66, 90, 72, 52, 98, 47, 48, 80, 89, 49, 107, 120, 107, 109, 118, 72, 106, 99, 90, 99, 56, 110, 111, 32, 107, 102, 122, 106, 51, 49, 71, 97, 106, 73, 81, 75, 89, 43, 53, 67, 112, 116, 76, 114, 51, 98, 117, 88, 65, 49, 48, 104, 32, 87, 113, 84, 107, 70, 55, 72, 54, 82, 102, 111, 82, 113, 88, 81, 101, 111, 103, 109, 77, 72, 102, 112, 102, 116, 102, 54, 122, 32, 77, 118, 49, 76, 121, 66, 85, 103, 105, 97, 55, 122, 97, 54, 90, 69, 122, 79, 74, 66, 79, 122, 116, 121, 118, 104, 106, 76, 32, 55, 52, 50, 105, 85, 47, 84, 112, 80, 83, 69, 68, 104, 109, 50, 83, 78, 75, 76, 105, 106, 102, 85, 112, 112, 110, 49, 85, 32, 97, 78, 118, 118, 52, 119, 61, 61] 60 1 = ok [1, 0, 3, 5, 1, 3, 210, 42, 108, 167, 127, 53, 184, 147, 32, 111, 211, 94, 76, 80, 109, 131, 120, 132, 55, 9, 185, 126, 4, 22, 71, 225, 191, 244, 61, 141, 100, 198, 73, 175, 30, 55, 25, 115, 201, 232, 145, 252, 227, 223, 81, 154, 140, 132, 10, 99, 238, 66, 166, 210, 235, 221, 187, 151, 3, 93, 33, 90, 164, 228, 23, 177, 250, 69, 250, 17, 169, 116, 30, 162, 9, 140, 29, 250, 95, 181, 254, 179, 50, 253, 75, 200, 21, 32, 137, 174, 243, 107, 166, 68, 204, 226, 65, 59, 59, 114, 190, 24, 203, 239, 141, 162, 83, 244, 233, 61, 33, 3, 134, 109, 146, 52, 162, 226, 141, 245, 41, 166, 125, 84, 104, 219, 239, 227] := by decide +kernel
example : strToRdata [54, 48, 52, 56, 53, 32, 53, 32, 49, 32, 50, 66, 66, 49, 56, 51, 65, 70, 53, 70, 50, 50, 53, 56, 56, 49, 55, 57, 65, 53, 51, 66, 48, 65, 57, 56, 54, 51, 49, 70, 65, 68, 49, 65, 50, 57, 50, 49, 49, 56] 43 1 = ok [236, 69, 5, 1, 43, 177, 131, 175, 95, 34, 88, 129, 121, 165, 59, 10, 152, 99, 31, 173, 26, 41, 33, 24] := by decide +kernel
example : strToRdata [54, 48, 52, 56, 53, 32, 53, 32, 49, 32, 50, 66, 66, 49, 56, 51, 65, 70, 53, 70, 50, 50, 53, 56, 56, 49, 55, 57, 65, 53, 51, 66, 48, 65, 57, 56, 54, 51, 49, 70, 65, 68, 49, 65, 50, 57, 50, 49, 49, 56] 59 1 = ok [236, 69, 5, 1, 43, 177, 131, 175, 95, 34, 88, 129, 121, 165, 59, 10, 152, 99, 31, 173, 26, 41, 33, 24] := by decide +kernel
example : strToRdata [65, 81, 73, 68, 66, 65, 85, 71, 66, 119, 103, 61] 61 1 = ok [1, 2, 3, 4, 5, 6, 7, 8] := by decide +kernel
example : strToRdata [54, 54, 32, 51, 32, 65, 32, 78, 83, 32, 65, 65, 65, 65] 62 1 = ok [0, 0, 0, 66, 0, 3, 0, 4, 96, 0, 0, 8] := by decide +kernel
example : strToRdata [65, 66, 45, 67, 68, 45, 69, 70, 45, 48, 49, 45, 48, 50, 45, 48, 51] 108 1 = ok [171, 205, 239, 1, 2, 3] := by decide +kernel
example : strToRdata [65, 66, 45, 67, 68, 45, 69, 70, 45, 48, 49, 45, 48, 50, 45, 48, 51, 45, 48, 52, 45, 48, 53] 109 1 = ok [171, 205, 239, 1, 2, 3, 4, 5] := by decide +kernel
example : strToRdata [49, 48, 32, 49, 32, 34, 102, 116, 112, 58, 47, 47, 102, 116, 112, 49, 46, 101, 120, 97, 109, 112, 108, 101, 46, 99, 111, 109, 47, 112, 117, 98, 108, 105, 99, 34] 256 1 = ok [0, 10, 0, 1, 102, 116, 112, 58, 47, 47, 102, 116, 112, 49, 46, 101, 120, 97, 109, 112, 108, 101, 46, 99, 111, 109, 47, 112, 117, 98, 108, 105, 99] := by decide +kernel
example : strToRdata [49, 48, 32, 49, 32, 34, 102, 116, 112, 58, 47, 47, 102, 116, 112, 49, 46, 101, 120, 92, 48, 57, 55, 109, 112, 108, 101, 46, 99, 111, 109, 47, 112, 117, 98, 108, 105, 99, 34] 256 1 = ok [0, 10, 0, 1, 102, 116, 112, 58, 47, 47, 102, 116, 112, 49, 46, 101, 120, 97, 109, 112, 108, 101, 46, 99, 111, 109, 47, 112, 117, 98, 108, 105, 99] := by decide +kernel
example : strToRdata [102, 115, 105, 46, 105, 111, 46] 5 1 = ok [3, 102, 115, 105, 2, 105, 111, 0] := by decide +kernel
example : strToRdata [102, 115, 105, 46, 105, 111] 5 1 = ok [3, 102, 115, 105, 2, 105, 111, 0] := by decide +kernel
example : strToRdata [102, 115, 105, 46, 105, 111, 46, 46] 5 1 = err .parseError := by decide +kernel
example : strToRdata [46] 5 1 = ok [0] := by decide +kernel
example : strToRdata [34, 104, 97, 114, 100, 119, 97, 114, 101, 34, 32, 34, 111, 115, 34] 13 1 = ok [8, 104, 97, 114, 100, 119, 97, 114, 101, 2, 111, 115] := by decide +kernel
example : strToRdata [104, 97, 114, 100, 119, 97, 114, 101, 32, 111, 115] 13 1 = ok [8, 104, 97, 114, 100, 119, 97, 114, 101, 2, 111, 115] := by decide +kernel
example : strToRdata [104, 97, 114, 100, 119, 97, 114, 101, 92, 34, 32, 111, 115] 13 1 = ok [9, 104, 97, 114, 100, 119, 97, 114, 101, 34, 2, 111, 115] := by decide +kernel
example : strToRdata [104, 97, 114, 100, 119, 97, 114, 101, 92, 48, 51, 50, 32, 111, 115] 13 1 = ok [9, 104, 97, 114, 100, 119, 97, 114, 101, 32, 2, 111, 115] := by decide +kernel
example : strToRdata [104, 97, 114, 100, 119, 97, 114, 101, 92, 48, 51, 97, 32, 111, 115] 13 1 = err .parseError := by decide +kernel
example : strToRdata [104, 97, 114, 100, 119, 97, 114, 101, 92, 50, 53, 54, 32, 111, 115] 13 1 = err .parseError := by decide +kernel
example : strToRdata [104, 97, 114, 100, 119, 97, 114, 101, 92, 110, 32, 111, 115] 13 1 = err .parseError := by decide +kernel
example : strToRdata [104, 97, 114, 100, 119, 97, 114, 101, 32, 111, 115, 92] 13 1 = err .parseError := by decide +kernel
example : strToRdata [104, 97, 114, 100, 119, 97, 114, 101, 32, 111, 115, 1] 13 1 = err .parseError := by decide +kernel
example : strToRdata [102, 115, 105, 46, 105, 111, 46, 32, 102, 97, 114, 115, 105, 103, 104, 116, 115, 101, 99, 117, 114, 105, 116, 121, 46, 99, 111, 109] 14 1 = ok [3, 102, 115, 105, 2, 105, 111, 0, 16, 102, 97, 114, 115, 105, 103, 104, 116, 115, 101, 99, 117, 114, 105, 116, 121, 3, 99, 111, 109, 0] := by decide +kernel
example : strToRdata [102, 115, 105, 46, 105, 111, 46] 14 1 = ok [3, 102, 115, 105, 2, 105, 111, 0] := by decide +kernel
example : strToRdata [53, 32, 109, 97, 105, 108, 46, 102, 115, 105, 46, 105, 111, 46] 15 1 = ok [0, 5, 4, 109, 97, 105, 108, 3, 102, 115, 105, 2, 105, 111, 0] := by decide +kernel
example : strToRdata [102, 111, 111, 32, 109, 97, 105, 108, 46, 102, 115, 105, 46, 105, 111, 46] 15 1 = err .parseError := by decide +kernel
example : strToRdata [53] 15 1 = ok [0, 5] := by decide +kernel
example : strToRdata [48, 53] 10 1 = ok [5] := by decide +kernel
example : strToRdata [70, 70, 48, 53] 10 1 = ok [255, 5] := by decide +kernel
example : strToRdata [65, 66, 70, 70, 48, 53] 10 1 = ok [171, 255, 5] := by decide +kernel
example : strToRdata [97, 98, 102, 102, 48, 53] 10 1 = ok [171, 255, 5] := by decide +kernel
example : strToRdata [97, 98, 99, 100, 102, 102, 48, 53] 10 1 = ok [171, 205, 255, 5] := by decide +kernel
example : strToRdata [53] 10 1 = err .parseError := by decide +kernel
example : strToRdata [49, 50, 51, 52, 53] 10 1 = err .parseError := by decide +kernel
example : strToRdata [102, 115, 105, 46, 105, 111, 46, 32, 114, 111, 111, 116, 46, 102, 115, 105, 46, 105, 111, 46, 32, 54, 53, 53, 51, 54, 32, 49, 48, 50, 52, 32, 49, 50, 55, 32, 51, 51, 53, 53, 52, 52, 51, 50, 32, 48] 6 1 = ok [3, 102, 115, 105, 2, 105, 111, 0, 4, 114, 111, 111, 116, 3, 102, 115, 105, 2, 105, 111, 0, 0, 1, 0, 0, 0, 0, 4, 0, 0, 0, 0, 127, 2, 0, 0, 0, 0, 0, 0, 0] := by decide +kernel
example : strToRdata [116, 120, 116] 16 1 = ok [3, 116, 120, 116] := by decide +kernel
example : strToRdata [116, 120, 116, 32, 114, 101, 99] 16 1 = ok [3, 116, 120, 116, 3, 114, 101, 99] := by decide +kernel
example : strToRdata [116, 120, 116, 32, 34, 114, 101, 99, 111, 114, 100, 34] 16 1 = ok [3, 116, 120, 116, 6, 114, 101, 99, 111, 114, 100] := by decide +kernel
example : strToRdata [116, 120, 116, 32, 34, 114, 101, 99, 111, 114, 100, 34, 32, 116, 104, 114, 101, 101] 16 1 = ok [3, 116, 120, 116, 6, 114, 101, 99, 111, 114, 100, 5, 116, 104, 114, 101, 101] := by decide +kernel
example : strToRdata [116, 120, 116, 32, 34, 114, 101, 99, 111, 114, 100, 34, 32, 116, 104, 114, 101, 101, 92] 16 1 = err .parseError := by decide +kernel
example : strToRdata [49, 50, 55, 46, 48, 46, 48, 46, 49] 1 1 = ok [127, 0, 0, 1] := by decide +kernel
example : strToRdata [49, 50, 55, 46, 48, 46, 48, 46, 50, 53, 54] 1 1 = err .parseError := by decide +kernel
example : strToRdata [49, 50, 55, 46, 48, 46, 48] 1 1 = err .parseError := by decide +kernel
example : strToRdata [49, 50, 55, 46, 48, 46, 48, 46, 48, 46, 49] 1 1 = err .parseError := by decide +kernel
example : strToRdata [58, 58, 49] 1 1 = err .parseError := by decide +kernel
example : strToRdata [102, 115, 105] 1 1 = err .parseError := by decide +kernel
example : strToRdata [51, 48, 53, 52, 49, 57, 56, 57, 54, 32, 49, 50, 55, 32, 48, 48, 100, 101, 97, 100, 98, 101, 101, 102, 48, 48] 11 1 = ok [18, 52, 86, 120, 127, 0, 222, 173, 190, 239, 0] := by decide +kernel
example : strToRdata [52, 50, 57, 52, 57, 54, 55, 50, 57, 55, 32, 49, 50, 55, 32, 48, 48, 100, 101, 97, 100, 98, 101, 101, 102, 48, 48] 11 1 = err .parseError := by decide +kernel
example : strToRdata [45, 49, 32, 49, 50, 55, 32, 48, 48, 100, 101, 97, 100, 98, 101, 101, 102, 48, 48] 11 1 = err .parseError := by decide +kernel
example : strToRdata [49, 50, 56, 32, 50, 48, 48, 48, 58, 58, 100, 101, 97, 100, 58, 98, 101, 101, 102, 32, 102, 115, 105, 46, 105, 111, 46] 38 1 = ok [128, 3, 102, 115, 105, 2, 105, 111, 0] := by decide +kernel
example : strToRdata [49, 50, 48, 32, 50, 48, 48, 48, 58, 58, 100, 101, 97, 100, 58, 98, 101, 101, 102, 32, 102, 115, 105, 46, 105, 111, 46] 38 1 = ok [120, 239, 3, 102, 115, 105, 2, 105, 111, 0] := by decide +kernel
example : strToRdata [50, 48, 48, 48, 58, 58, 100, 101, 97, 100, 58, 98, 101, 101, 102, 32, 102, 115, 105, 46, 105, 111, 46] 38 1 = err .parseError := by decide +kernel
example : strToRdata [48, 32, 58, 58] 38 1 = ok [0, 0, 0, 0, 0, 0, 0, 0, 0, 0, 0, 0, 0, 0, 0, 0, 0] := by decide +kernel
example : strToRdata [48, 32, 58, 58, 32, 102, 115, 105, 46, 105, 111] 38 1 = err .parseError := by decide +kernel
example : strToRdata [58, 58] 28 1 = ok [0, 0, 0, 0, 0, 0, 0, 0, 0, 0, 0, 0, 0, 0, 0, 0] := by decide +kernel
example : strToRdata [49, 50, 51, 52, 58, 52, 53, 54, 55, 58, 58, 97, 98, 99, 100, 58, 101, 102, 48, 49] 28 1 = ok [18, 52, 69, 103, 0, 0, 0, 0, 0, 0, 0, 0, 171, 205, 239, 1] := by decide +kernel
example : strToRdata [58, 58, 97, 98, 99, 100, 58, 101, 102, 48, 49] 28 1 = ok [0, 0, 0, 0, 0, 0, 0, 0, 0, 0, 0, 0, 171, 205, 239, 1] := by decide +kernel
example : strToRdata [49, 50, 55, 46, 48, 46, 48, 46, 49] 28 1 = err .parseError := by decide +kernel
example : strToRdata [102, 115, 105, 46, 105, 111] 28 1 = err .parseError := by decide +kernel
example : strToRdata [54, 53, 53, 51, 53, 32, 54, 52, 32, 48, 49, 32, 90, 71, 86, 104, 90, 71, 74, 108, 90, 87, 89, 61] 48 1 = ok [255, 255, 64, 1, 100, 101, 97, 100, 98, 101, 101, 102] := by decide +kernel
example : strToRdata [54, 53, 53, 51, 53, 32, 54, 52, 32, 48, 49, 32, 90, 71, 86, 104, 90, 71, 74, 108, 90, 87, 89, 61, 61] 48 1 = ok [255, 255, 64, 1, 100, 101, 97, 100, 98, 101, 101, 102] := by decide +kernel
example : strToRdata [54, 53, 53, 51, 53, 32, 54, 52, 32, 48, 49, 32, 90, 71, 86, 104, 90, 71, 74, 108, 90, 87, 89] 48 1 = ok [255, 255, 64, 1, 100, 101, 97, 100, 98, 101, 101, 102] := by decide +kernel
example : strToRdata [54, 53, 53, 51, 53, 32, 54, 52, 32, 48, 49, 32, 90, 71, 86, 104, 90, 71, 74, 108, 90, 87, 90, 122] 48 1 = ok [255, 255, 64, 1, 100, 101, 97, 100, 98, 101, 101, 102, 115] := by decide +kernel
example : strToRdata [102, 115, 105, 46, 105, 111, 32, 65, 32, 78, 83, 32, 77, 88] 47 1 = ok [3, 102, 115, 105, 2, 105, 111, 0, 0, 2, 96, 1] := by decide +kernel
example : strToRdata [102, 115, 105, 46, 105, 111] 47 1 = ok [3, 102, 115, 105, 2, 105, 111, 0] := by decide +kernel
example : strToRdata [102, 115, 105, 46, 105, 111, 32, 85, 82, 73, 32, 67, 65, 65, 32, 84, 89, 80, 69, 50, 53, 56] 47 1 = ok [3, 102, 115, 105, 2, 105, 111, 0, 1, 1, 224] := by decide +kernel
example : strToRdata [102, 115, 105, 46, 105, 111, 32, 65, 32, 78, 83, 32, 77, 68, 32, 77, 70, 32, 67, 78, 65, 77, 69, 32, 83, 79, 65, 32, 77, 66, 32, 77, 71, 32, 77, 82, 32, 87, 75, 83, 32, 80, 84, 82, 32, 72, 73, 78, 70, 79, 32, 77, 73, 78, 70, 79, 32, 77, 88, 32, 84, 88, 84, 32, 82, 80, 32, 65, 70, 83, 68, 66, 32, 85, 82, 73, 32, 67, 65, 65] 47 1 = ok [3, 102, 115, 105, 2, 105, 111, 0, 0, 3, 127, 223, 224, 1, 1, 192] := by decide +kernel
example : strToRdata [102, 115, 105, 46, 105, 111, 32, 65, 32, 65, 70, 83, 68, 66, 32, 67, 65, 65, 32, 67, 78, 65, 77, 69, 32, 72, 73, 78, 70, 79, 32, 77, 66, 32, 77, 68, 32, 77, 70, 32, 77, 71, 32, 77, 73, 78, 70, 79, 32, 77, 82, 32, 77, 88, 32, 78, 83, 32, 80, 84, 82, 32, 82, 80, 32, 83, 79, 65, 32, 84, 88, 84, 32, 85, 82, 73, 32, 87, 75, 83] 47 1 = ok [3, 102, 115, 105, 2, 105, 111, 0, 0, 3, 127, 223, 224, 1, 1, 192] := by decide +kernel
example : strToRdata [102, 115, 105, 46, 105, 111, 32, 65, 32, 78, 83, 32, 77, 88, 32, 70, 65, 75, 69] 47 1 = err .parseError := by decide +kernel
example : strToRdata [49, 32, 50, 32, 51, 32, 45] 51 1 = ok [1, 2, 0, 3, 0] := by decide +kernel
example : strToRdata [49, 32, 50, 32, 51, 32, 100, 101, 97, 100, 98, 101, 101, 102] 51 1 = ok [1, 2, 0, 3, 4, 222, 173, 190, 239] := by decide +kernel
example : strToRdata [49, 32, 50, 32, 51, 32, 100, 101, 97, 100, 98, 101, 101, 102, 102] 51 1 = err .parseError := by decide +kernel
example : strToRdata [49, 32, 50, 32, 51, 32, 100, 101, 97, 100, 98, 101, 101, 102, 45] 51 1 = err .parseError := by decide +kernel
example : strToRdata [49, 32, 50, 32, 51, 32, 103, 103] 51 1 = err .parseError := by decide +kernel
example : strToRdata [49, 32, 50, 32, 51, 32, 45, 45] 51 1 = err .parseError := by decide +kernel
example : strToRdata [49, 32, 50, 32, 51] 51 1 = ok [1, 2, 0, 3] := by decide +kernel
example : strToRdata [49, 32, 49, 32, 49, 48, 32, 55, 50, 50, 53, 97, 50, 51, 57, 100, 52, 50, 51, 48, 98, 98, 97, 55, 98, 101, 50, 32, 79, 52, 75, 50, 51, 83, 75, 86, 73, 55, 80, 84, 71, 86, 82, 53, 76, 82, 73, 84, 67, 56, 73, 68, 73, 81, 54, 75, 74, 86, 65, 48, 32, 78, 83, 32, 68, 83, 32, 82, 82, 83, 73, 71] 50 1 = ok [1, 1, 0, 10, 10, 114, 37, 162, 57, 212, 35, 11, 186, 123, 226, 20, 193, 40, 33, 242, 159, 145, 243, 216, 127, 101, 174, 229, 214, 34, 77, 150, 141, 73, 253, 64, 0, 6, 32, 0, 0, 0, 0, 18] := by decide +kernel
example : strToRdata [78, 83, 69, 67, 32, 53, 32, 53, 32, 55, 50, 48, 48, 32, 49, 52, 52, 50, 57, 52, 57, 57, 52, 53, 32, 49, 52, 52, 48, 51, 53, 52, 51, 52, 53, 32, 51, 52, 53, 55, 50, 32, 53, 46, 105, 110, 45, 97, 100, 100, 114, 46, 97, 114, 112, 97, 46, 32, 97, 84, 80, 113, 72, 113, 118, 116, 68, 115, 100, 121, 89, 54, 97, 99, 121, 53, 66, 122, 98, 109, 106, 122, 74, 99, 100, 78, 87, 101, 70, 87, 50, 108, 97, 84, 89, 89, 47, 43, 78, 74, 115, 77, 65, 101, 100, 83, 114, 121, 118, 68, 74, 75, 107, 65, 32, 101, 118, 86, 104, 52, 70, 118, 52, 71, 43, 111, 57, 84, 115, 51, 88, 75, 104, 89, 85, 105, 104, 87, 50, 113, 88, 112, 55, 98, 98, 104, 72, 109, 108, 73, 118, 83, 89, 51, 113, 88, 54, 55, 47, 84, 105, 57, 68, 122, 82, 80, 121, 109, 105, 114, 116, 32, 109, 53, 102, 102, 69, 83, 70, 79, 55, 43, 52, 72, 50, 81, 70, 100, 53, 120, 73, 112, 111, 74, 72, 47, 87, 81, 121, 115, 78, 87, 122, 67, 121, 76, 116, 43, 74, 101, 103, 117, 72, 52, 47, 55, 80, 85, 53, 67, 57, 75, 51, 48, 99, 113, 113, 100, 32, 118, 74, 107, 61] 46 1 = ok [0, 47, 5, 5, 0, 0, 28, 32, 86, 1, 171, 57, 85, 218, 16, 41, 135, 12, 1, 53, 7, 105, 110, 45, 97, 100, 100, 114, 4, 97, 114, 112, 97, 0, 105, 51, 234, 30, 171, 237, 14, 199, 114, 99, 166, 156, 203, 144, 115, 110, 104, 243, 37, 199, 77, 89, 225, 86, 218, 86, 147, 97, 143, 254, 52, 155, 12, 1, 231, 82, 175, 43, 195, 36, 169, 0, 122, 245, 97, 224, 91, 248, 27, 234, 61, 78, 205, 215, 42, 22, 20, 138, 21, 182, 169, 122, 123, 109, 184, 71, 154, 82, 47, 73, 141, 234, 95, 174, 255, 78, 47, 67, 205, 19, 242, 154, 42, 237, 155, 151, 223, 17, 33, 78, 239, 238, 7, 217, 1, 93, 231, 18, 41, 160, 145, 255, 89, 12, 172, 53, 108, 194, 200, 187, 126, 37, 232, 46, 31, 143, 251, 61, 78, 66, 244, 173, 244, 114, 170, 157, 188, 153] := by decide +kernel
example : strToRdata [78, 83, 69, 67, 51, 32, 49, 48, 32, 51, 32, 49, 55, 50, 56, 48, 48, 32, 49, 52, 52, 51, 49, 55, 57, 50, 55, 52, 32, 49, 52, 52, 48, 53, 56, 52, 55, 53, 52, 32, 50, 53, 52, 50, 55, 32, 103, 111, 46, 105, 100, 46, 32, 84, 122, 71, 122, 75, 66, 78, 112, 81, 121, 115, 89, 73, 69, 66, 72, 122, 67, 77, 117, 98, 53, 80, 83, 103, 54, 72, 53, 54, 52, 120, 116, 50, 99, 47, 74, 89, 87, 54, 102, 67, 79, 121, 111, 85, 101, 115, 68, 113, 69, 67, 98, 74, 72, 68, 108, 32, 54, 112, 103, 121, 81, 97, 105, 99, 67, 114, 115, 100, 83, 117, 113, 73, 109, 83, 105, 49, 69, 106, 54, 51, 79, 69, 103, 74, 49, 111, 53, 103, 75, 85, 81, 104, 48, 98, 114, 113, 55, 105, 56, 111, 68, 90, 51, 52, 51, 77, 53, 55, 106, 57, 79, 55, 32, 104, 107, 55, 72, 109, 43, 48, 54, 54, 114, 50, 100, 69, 75, 65, 68, 50, 99, 48, 83, 75, 101, 70, 84, 100, 79, 104, 106, 87, 107, 48, 49, 79, 112, 107, 119, 43, 68, 87, 48, 83, 98, 104, 118, 75, 98, 115, 110, 103, 73, 73, 51, 101, 53, 109, 98, 32, 121, 55, 43, 117, 83, 87, 51, 84, 72, 48, 79, 88, 47, 110, 79, 90, 77, 116, 101, 56, 70, 49, 122, 57, 56, 85, 121, 71, 75, 106, 82, 115, 73, 110, 108, 88, 102, 99, 52, 110, 104, 50, 84, 107, 110, 114, 119, 118, 71, 70, 103, 82, 90, 111, 83, 49, 32, 88, 50, 80, 87, 76, 107, 122, 86, 81, 83, 106, 71, 115, 102, 76, 83, 49, 47, 78, 48, 49, 84, 89, 86, 71, 101, 48, 73, 121, 68, 87, 111, 89, 54, 99, 115, 78, 81, 104, 110, 83, 83, 53, 51, 90, 49, 87, 65, 73, 90, 79, 117, 83, 111, 86, 53, 32, 111, 66, 66, 67, 81, 73, 81, 70, 68, 106, 107, 110, 113, 84, 57, 47, 89, 107, 113, 81, 78, 67, 74, 115, 111, 48, 120, 71, 99, 114, 50, 67, 121, 81, 72, 75, 99, 86, 100, 117, 120, 89, 71, 103, 86, 97, 114, 69, 65, 66, 65, 78, 114, 68, 81, 86, 32, 68, 120, 112, 117, 69, 101, 97, 89, 71, 83, 55, 43, 101, 71, 74, 84, 43, 115, 122, 110, 73, 116, 79, 84, 81, 101, 83, 83, 89, 111, 117, 103, 83, 117, 54, 68, 115, 120, 86, 119, 89, 121, 84, 105, 120, 47, 97, 108, 79, 43, 75, 112, 85, 119, 122, 80, 32, 55, 89, 90, 66, 74, 73, 115, 115, 110, 72, 89, 100, 113, 85, 118, 88, 81, 108, 99, 120, 112, 89, 116, 108, 104, 69, 89, 99, 73, 83, 108, 99, 80, 53, 65, 116, 101, 47, 65, 50, 104, 111, 68, 82, 43, 75, 88, 111, 49, 43, 54, 121, 100, 66, 85, 121, 32, 103, 109, 78, 84, 76, 82, 89, 86, 88, 55, 78, 43, 97, 106, 82, 110, 66, 73, 65, 104, 65, 111, 97, 71, 111, 116, 112, 103, 122, 85, 101, 51, 117, 90, 73, 111, 105, 75, 105, 56, 70, 89, 47, 76, 52, 103, 108, 69, 57, 51, 109, 70, 67, 66, 113, 98, 32, 43, 52, 109, 74, 55, 79, 53, 114, 116, 87, 108, 110, 72, 121, 57, 106, 77, 108, 87, 57, 65, 73, 122, 111, 113, 102, 68, 109, 76, 111, 78, 97, 84, 85, 70, 49, 68, 54, 109, 100, 107, 86, 85, 53, 71, 115, 43, 69, 48, 103, 83, 84, 54, 77, 108, 110, 32, 97, 114, 74, 116, 73, 72, 116, 116, 68, 76, 122, 47, 71, 90, 77, 79, 110, 100, 55, 57, 43, 71, 75, 84, 100, 75, 85, 114, 53, 67, 104, 52, 81, 80, 53, 76, 65, 76, 121, 115, 54, 87, 68, 87, 97, 50, 69, 100, 85, 103, 50, 90, 87, 72, 53, 109, 32, 104, 113, 85, 43, 53, 88, 81, 68, 77, 99, 79, 70, 121, 101, 121, 76, 115, 113, 117, 100, 121, 52, 68, 107, 88, 107, 50, 114, 70, 77, 116, 71, 81, 108, 85, 48, 99, 114, 122, 97, 75, 75, 121, 102, 43, 113, 83, 101, 77, 98, 88, 77, 100, 97, 49, 70, 32, 71, 85, 43, 107, 119, 114, 81, 118, 103, 116, 69, 61] 46 1 = ok [0, 50, 10, 3, 0, 2, 163, 0, 86, 5, 43, 10, 85, 221, 148, 50, 99, 83, 2, 103, 111, 2, 105, 100, 0, 79, 49, 179, 40, 19, 105, 67, 43, 24, 32, 64, 71, 204, 35, 46, 111, 147, 210, 131, 161, 249, 235, 140, 109, 217, 207, 201, 97, 110, 159, 8, 236, 168, 81, 235, 3, 168, 64, 155, 36, 112, 229, 234, 152, 50, 65, 168, 156, 10, 187, 29, 74, 234, 136, 153, 40, 181, 18, 62, 183, 56, 72, 9, 214, 142, 96, 41, 68, 33, 209, 186, 234, 238, 47, 40, 13, 157, 248, 220, 206, 123, 143, 211, 187, 134, 78, 199, 155, 237, 58, 234, 189, 157, 16, 160, 3, 217, 205, 18, 41, 225, 83, 116, 232, 99, 90, 77, 53, 58, 153, 48, 248, 53, 180, 73, 184, 111, 41, 187, 39, 128, 130, 55, 123, 153, 155, 203, 191, 174, 73, 109, 211, 31, 67, 151, 254, 115, 153, 50, 215, 188, 23, 92, 253, 241, 76, 134, 42, 52, 108, 34, 121, 87, 125, 206, 39, 135, 100, 228, 158, 188, 47, 24, 88, 17, 102, 132, 181, 95, 99, 214, 46, 76, 213, 65, 40, 198, 177, 242, 210, 215, 243, 116, 213, 54, 21, 25, 237, 8, 200, 53, 168, 99, 167, 44, 53, 8, 103, 73, 46, 119, 103, 85, 128, 33, 147, 174, 74, 133, 121, 160, 16, 66, 64, 132, 5, 14, 57, 39, 169, 63, 127, 98, 74, 144, 52, 34, 108, 163, 76, 70, 114, 189, 130, 201, 1, 202, 113, 87, 110, 197, 129, 160, 85, 170, 196, 0, 16, 13, 172, 52, 21, 15, 26, 110, 17, 230, 152, 25, 46, 254, 120, 98, 83, 250, 204, 231, 34, 211, 147, 65, 228, 146, 98, 139, 160, 74, 238, 131, 179, 21, 112, 99, 36, 226, 199, 246, 165, 59, 226, 169, 83, 12, 207, 237, 134, 65, 36, 139, 44, 156, 118, 29, 169, 75, 215, 66, 87, 49, 165, 139, 101, 132, 70, 28, 33, 41, 92, 63, 144, 45, 123, 240, 54, 134, 128, 209, 248, 165, 232, 215, 238, 178, 116, 21, 50, 130, 99, 83, 45, 22, 21, 95, 179, 126, 106, 52, 103, 4, 128, 33, 2, 134, 134, 162, 218, 96, 205, 71, 183, 185, 146, 40, 136, 168, 188, 21, 143, 203, 226, 9, 68, 247, 121, 133, 8, 26, 155, 251, 137, 137, 236, 238, 107, 181, 105, 103, 31, 47, 99, 50, 85, 189, 0, 140, 232, 169, 240, 230, 46, 131, 90, 77, 65, 117, 15, 169, 157, 145, 85, 57, 26, 207, 132, 210, 4, 147, 232, 201, 103, 106, 178, 109, 32, 123, 109, 12, 188, 255, 25, 147, 14, 157, 222, 253, 248, 98, 147, 116, 165, 43, 228, 40, 120, 64, 254, 75, 0, 188, 172, 233, 96, 214, 107, 97, 29, 82, 13, 153, 88, 126, 102, 134, 165, 62, 229, 116, 3, 49, 195, 133, 201, 236, 139, 178, 171, 157, 203, 128, 228, 94, 77, 171, 20, 203, 70, 66, 85, 52, 114, 188, 218, 40, 172, 159, 250, 164, 158, 49, 181, 204, 117, 173, 69, 25, 79, 164, 194, 180, 47, 130, 209] := by decide +kernel
example : strToRdata [92, 35, 32, 50, 52, 32, 100, 53, 32, 55, 57, 32, 48, 56, 32, 48, 49, 32, 57, 56, 32, 52, 101, 32, 100, 50, 32, 57, 54, 32, 57, 97, 32, 55, 54, 32, 48, 99, 32, 102, 54, 32, 48, 57, 32, 56, 101, 32, 97, 49, 32, 52, 97, 32, 56, 52, 32, 54, 53, 32, 49, 54, 32, 57, 99, 32, 97, 97, 32, 57, 99, 32, 52, 56, 32, 48, 55] 32769 1 = ok [213, 121, 8, 1, 152, 78, 210, 150, 154, 118, 12, 246, 9, 142, 161, 74, 132, 101, 22, 156, 170, 156, 72, 7] := by decide +kernel
example : strToRdata [49, 32, 46, 32, 97, 108, 112, 110, 61, 34, 104, 50, 34] 65 1 = ok [0, 1, 0, 0, 1, 0, 3, 2, 104, 50] := by decide +kernel
example : strToRdata [49, 32, 46, 32, 97, 108, 112, 110, 61, 34, 104, 50, 92, 49, 50, 56, 92, 48, 48, 48, 92, 34, 34] 65 1 = ok [0, 1, 0, 0, 1, 0, 6, 5, 104, 50, 128, 0, 34] := by decide +kernel
example : strToRdata [49, 32, 46, 32, 97, 108, 112, 110, 61, 34, 112, 97, 114, 116, 49, 44, 112, 97, 114, 116, 50, 44, 112, 97, 114, 116, 51, 92, 92, 44, 112, 97, 114, 116, 52, 92, 92, 92, 92, 34] 65 1 = ok [0, 1, 0, 0, 1, 0, 25, 5, 112, 97, 114, 116, 49, 5, 112, 97, 114, 116, 50, 12, 112, 97, 114, 116, 51, 44, 112, 97, 114, 116, 52, 92] := by decide +kernel
example : strToRdata [49, 32, 46, 32, 97, 108, 112, 110, 61, 34, 104, 50, 92, 92, 34] 65 1 = err .parseError := by decide +kernel
example : strToRdata [49, 32, 46, 32, 97, 108, 112, 110, 61, 34, 104, 50, 92, 44, 34] 65 1 = err .parseError := by decide +kernel
example : strToRdata [49, 32, 46, 32, 97, 108, 112, 110, 61, 34, 104, 50] 65 1 = err .parseError := by decide +kernel
example : strToRdata [49, 32, 46, 32, 117, 110, 107, 110, 111, 119, 110, 61, 118, 97, 108, 117, 101] 65 1 = err .parseError := by decide +kernel
example : strToRdata [49, 32, 46, 32, 117, 110, 100, 101, 114, 95, 115, 99, 111, 114, 101, 61, 118, 97, 108, 117, 101] 65 1 = err .parseError := by decide +kernel
example : strToRdata [49, 32, 46, 32, 65, 76, 80, 78, 61, 34, 104, 50, 44, 104, 51, 34] 65 1 = err .parseError := by decide +kernel
example : strToRdata [49, 32, 46, 32, 107, 101, 121, 54, 53, 53, 51, 53, 61, 118, 97, 108, 117, 101] 65 1 = err .parseError := by decide +kernel
example : strToRdata [49, 32, 46, 32, 97, 108, 112, 110, 61, 34, 104, 50, 44, 104, 51, 34] 65 1 = ok [0, 1, 0, 0, 1, 0, 6, 2, 104, 50, 2, 104, 51] := by decide +kernel
example : strToRdata [49, 32, 46, 32, 97, 108, 112, 110, 61, 34, 104, 50, 44, 104, 51, 34, 32, 110, 111, 45, 100, 101, 102, 97, 117, 108, 116, 45, 97, 108, 112, 110] 65 1 = ok [0, 1, 0, 0, 1, 0, 6, 2, 104, 50, 2, 104, 51, 0, 2, 0, 0] := by decide +kernel
example : strToRdata [49, 32, 46, 32, 97, 108, 112, 110, 61, 34, 104, 50, 44, 104, 51, 34, 32, 110, 111, 45, 100, 101, 102, 97, 117, 108, 116, 45, 97, 108, 112, 110, 61, 49] 65 1 = err .parseError := by decide +kernel
example : strToRdata [49, 32, 46, 32, 112, 111, 114, 116, 61, 49, 49, 49, 49] 65 1 = ok [0, 1, 0, 0, 3, 0, 2, 4, 87] := by decide +kernel
example : strToRdata [49, 32, 46, 32, 105, 112, 118, 52, 104, 105, 110, 116, 61, 49, 57, 50, 46, 49, 54, 56, 46, 48, 46, 49] 65 1 = ok [0, 1, 0, 0, 4, 0, 4, 192, 168, 0, 1] := by decide +kernel
example : strToRdata [49, 32, 46, 32, 105, 112, 118, 52, 104, 105, 110, 116, 61, 49, 57, 50, 46, 49, 54, 56, 46, 48, 46, 49, 44, 49, 57, 50, 46, 49, 54, 56, 46, 48, 46, 50] 65 1 = ok [0, 1, 0, 0, 4, 0, 8, 192, 168, 0, 1, 192, 168, 0, 2] := by decide +kernel
example : strToRdata [49, 32, 46, 32, 105, 112, 118, 54, 104, 105, 110, 116, 61, 50, 48, 48, 49, 58, 100, 98, 56, 58, 58, 49] 64 1 = ok [0, 1, 0, 0, 6, 0, 16, 32, 1, 13, 184, 0, 0, 0, 0, 0, 0, 0, 0, 0, 0, 0, 1] := by decide +kernel
example : strToRdata [49, 32, 46, 32, 101, 99, 104] 65 1 = err .parseError := by decide +kernel
example : strToRdata [49, 32, 46, 32, 101, 99, 104, 61, 97, 98, 99, 100, 101, 102, 103, 104, 105, 106, 107, 108] 65 1 = ok [0, 1, 0, 0, 5, 0, 9, 105, 183, 29, 121, 248, 33, 138, 57, 37] := by decide +kernel
example : strToRdata [49, 32, 46, 32, 109, 97, 110, 100, 97, 116, 111, 114, 121, 61, 97, 108, 112, 110, 44, 112, 111, 114, 116, 32, 97, 108, 112, 110, 61, 34, 104, 50, 44, 104, 51, 34, 32, 110, 111, 45, 100, 101, 102, 97, 117, 108, 116, 45, 97, 108, 112, 110, 32, 112, 111, 114, 116, 61, 49, 49, 49, 49, 32, 105, 112, 118, 52, 104, 105, 110, 116, 61, 49, 57, 50, 46, 49, 54, 56, 46, 48, 46, 49, 44, 49, 57, 50, 46, 49, 54, 56, 46, 48, 46, 50, 32, 105, 112, 118, 54, 104, 105, 110, 116, 61, 50, 48, 48, 49, 58, 100, 98, 56, 58, 58, 49] 65 1 = ok [0, 1, 0, 0, 0, 0, 4, 0, 1, 0, 3, 0, 1, 0, 6, 2, 104, 50, 2, 104, 51, 0, 2, 0, 0, 0, 3, 0, 2, 4, 87, 0, 4, 0, 8, 192, 168, 0, 1, 192, 168, 0, 2, 0, 6, 0, 16, 32, 1, 13, 184, 0, 0, 0, 0, 0, 0, 0, 0, 0, 0, 0, 1] := by decide +kernel
example : strToRdata [49, 32, 46, 32, 107, 101, 121, 49, 48, 61, 34, 50, 50, 50, 34] 65 1 = ok [0, 1, 0, 0, 10, 0, 3, 50, 50, 50] := by decide +kernel
example : strToRdata [49, 32, 46, 32, 107, 101, 121, 49, 48, 61, 34, 50, 50, 50] 65 1 = err .parseError := by decide +kernel
example : strToRdata [74, 85, 78, 75] 64 1 = err .parseError := by decide +kernel
example : strToRdata [74, 85, 78, 75, 32, 46] 64 1 = err .parseError := by decide +kernel
example : strToRdata [45, 49, 32, 46] 64 1 = err .parseError := by decide +kernel
example : strToRdata [54, 53, 53, 51, 54, 32, 46] 64 1 = err .parseError := by decide +kernel
example : strToRdata [54, 53, 53, 51, 53, 32, 46] 64 1 = ok [255, 255, 0] := by decide +kernel
example : strToRdata [48, 32, 46] 64 1 = ok [0, 0, 0] := by decide +kernel
example : strToRdata [48, 32, 46, 32, 107, 101, 121, 49, 61, 97, 98, 99] 64 1 = ok [0, 0, 0, 0, 1, 0, 4, 3, 97, 98, 99] := by decide +kernel
example : strToRdata [49, 32, 46, 32, 107, 101, 121, 49, 61, 34, 97, 98, 99, 34] 64 1 = ok [0, 1, 0, 0, 1, 0, 4, 3, 97, 98, 99] := by decide +kernel
example : strToRdata [49, 54, 32, 102, 111, 111, 46, 101, 120, 97, 109, 112, 108, 101, 46, 111, 114, 103, 46, 32, 97, 108, 112, 110, 61, 34, 102, 92, 92, 92, 92, 111, 111, 92, 92, 44, 98, 97, 114, 44, 104, 50, 34] 64 1 = ok [0, 16, 3, 102, 111, 111, 7, 101, 120, 97, 109, 112, 108, 101, 3, 111, 114, 103, 0, 0, 1, 0, 12, 8, 102, 92, 111, 111, 44, 98, 97, 114, 2, 104, 50] := by decide +kernel
example : strToRdata [48, 32, 34, 105, 115, 115, 117, 101, 34, 32, 34, 100, 105, 103, 105, 99, 101, 114, 116, 46, 99, 111, 109, 34] 257 1 = ok [0, 5, 105, 115, 115, 117, 101, 100, 105, 103, 105, 99, 101, 114, 116, 46, 99, 111, 109] := by decide +kernel
example : rdataToStr [0, 32, 0, 0, 0, 0, 0, 0, 0, 0, 0, 0, 0, 222, 173, 190, 239] 17 38 1 = ok [48, 32, 50, 48, 48, 48, 58, 58, 100, 101, 97, 100, 58, 98, 101, 101, 102] := by decide +kernel
example : rdataToStr [8, 0, 0, 0, 0, 0, 0, 0, 0, 0, 0, 0, 222, 173, 190, 239, 3, 102, 115, 105, 2, 105, 111, 0] 24 38 1 = ok [56, 32, 58, 58, 50, 50, 50, 46, 49, 55, 51, 46, 49, 57, 48, 46, 50, 51, 57, 32, 102, 115, 105, 46, 105, 111, 46] := by decide +kernel
example : rdataToStr [128, 3, 102, 115, 105, 2, 105, 111, 0] 9 38 1 = ok [49, 50, 56, 32, 102, 115, 105, 46, 105, 111, 46] := by decide +kernel
example : rdataToStr [0, 10, 0, 1, 102, 116, 112, 58, 47, 47, 102, 116, 112, 49, 46, 101, 120, 97, 109, 112, 108, 101, 46, 99, 111, 109, 47, 112, 117, 98, 108, 105, 99] 33 256 1 = ok [49, 48, 32, 49, 32, 34, 102, 116, 112, 58, 47, 47, 102, 116, 112, 49, 46, 101, 120, 97, 109, 112, 108, 101, 46, 99, 111, 109, 47, 112, 117, 98, 108, 105, 99, 34] := by decide +kernel
example : rdataToStr [0, 10, 0, 1, 104, 116, 116, 112, 115, 58, 47, 47, 119, 119, 119, 46, 105, 115, 99, 46, 111, 114, 103, 47, 72, 111, 108, 121, 67, 111, 119, 84, 104, 105, 115, 83, 117, 114, 101, 73, 115, 65, 86, 101, 114, 121, 76, 111, 110, 103, 85, 82, 73, 82, 101, 99, 111, 114, 100, 73, 68, 111, 110, 116, 69, 118, 101, 110, 75, 110, 111, 119, 87, 104, 97, 116, 83, 111, 109, 101, 111, 110, 101, 87, 111, 117, 108, 100, 69, 118, 101, 114, 87, 97, 110, 116, 87, 105, 116, 104, 83, 117, 99, 104, 65, 84, 104, 105, 110, 103, 66, 117, 116, 84, 104, 101, 83, 112, 101, 99, 105, 102, 105, 99, 97, 116, 105, 111, 110, 82, 101, 113, 117, 105, 114, 101, 115, 84, 104, 97, 116, 87, 101, 115, 117, 112, 112, 111, 114, 116, 73, 116, 83, 111, 72, 101, 114, 101, 87, 101, 71, 111, 84, 101, 115, 116, 105, 110, 103, 73, 116, 76, 97, 76, 97, 76, 97, 76, 97, 76, 97, 76, 97, 76, 97, 83, 101, 114, 105, 111, 117, 115, 108, 121, 84, 104, 111, 117, 103, 104, 87, 104, 121, 87, 111, 117, 108, 100, 89, 111, 117, 69, 118, 101, 110, 67, 111, 110, 115, 105, 100, 101, 114, 85, 115, 105, 110, 103, 65, 85, 82, 73, 84, 104, 105, 115, 76, 111, 110, 103, 73, 116, 83, 101, 101, 109, 115, 76, 105, 107, 101, 65, 83, 105, 108, 108, 121, 73, 100, 101, 97, 66, 117, 116, 69, 110, 104, 87, 104, 97, 116, 65, 114, 101, 89, 111, 117, 71, 111, 110, 110, 97, 68, 111, 47] 285 256 1 = ok [49, 48, 32, 49, 32, 34, 104, 116, 116, 112, 115, 58, 47, 47, 119, 119, 119, 46, 105, 115, 99, 46, 111, 114, 103, 47, 72, 111, 108, 121, 67, 111, 119, 84, 104, 105, 115, 83, 117, 114, 101, 73, 115, 65, 86, 101, 114, 121, 76, 111, 110, 103, 85, 82, 73, 82, 101, 99, 111, 114, 100, 73, 68, 111, 110, 116, 69, 118, 101, 110, 75, 110, 111, 119, 87, 104, 97, 116, 83, 111, 109, 101, 111, 110, 101, 87, 111, 117, 108, 100, 69, 118, 101, 114, 87, 97, 110, 116, 87, 105, 116, 104, 83, 117, 99, 104, 65, 84, 104, 105, 110, 103, 66, 117, 116, 84, 104, 101, 83, 112, 101, 99, 105, 102, 105, 99, 97, 116, 105, 111, 110, 82, 101, 113, 117, 105, 114, 101, 115, 84, 104, 97, 116, 87, 101, 115, 117, 112, 112, 111, 114, 116, 73, 116, 83, 111, 72, 101, 114, 101, 87, 101, 71, 111, 84, 101, 115, 116, 105, 110, 103, 73, 116, 76, 97, 76, 97, 76, 97, 76, 97, 76, 97, 76, 97, 76, 97, 83, 101, 114, 105, 111, 117, 115, 108, 121, 84, 104, 111, 117, 103, 104, 87, 104, 121, 87, 111, 117, 108, 100, 89, 111, 117, 69, 118, 101, 110, 67, 111, 110, 115, 105, 100, 101, 114, 85, 115, 105, 110, 103, 65, 85, 82, 73, 84, 104, 105, 115, 76, 111, 110, 103, 73, 116, 83, 101, 101, 109, 115, 76, 105, 107, 101, 65, 83, 105, 108, 108, 121, 73, 100, 101, 97, 66, 117, 116, 69, 110, 104, 87, 104, 97, 116, 65, 114, 101, 89, 111, 117, 71, 111, 110, 110, 97, 68, 111, 47, 34] := by decide +kernel
example : rdataToStr [4, 115, 111, 109, 101, 4, 116, 101, 120, 116] 10 16 1 = ok [34, 115, 111, 109, 101, 34, 32, 34, 116, 101, 120, 116, 34] := by decide +kernel
example : rdataToStr [8, 34, 113, 117, 111, 116, 101, 100, 34] 9 16 1 = ok [34, 92, 34, 113, 117, 111, 116, 101, 100, 92, 34, 34] := by decide +kernel
example : rdataToStr [3, 111, 110, 101, 5, 113, 117, 111, 116, 101, 1, 34, 4, 115, 101, 110, 116, 4, 111, 118, 101, 114, 3, 116, 104, 101, 4, 119, 105, 114, 101] 31 16 1 = ok [34, 111, 110, 101, 34, 32, 34, 113, 117, 111, 116, 101, 34, 32, 34, 92, 34, 34, 32, 34, 115, 101, 110, 116, 34, 32, 34, 111, 118, 101, 114, 34, 32, 34, 116, 104, 101, 34, 32, 34, 119, 105, 114, 101, 34] := by decide +kernel
example : rdataToStr [255, 97, 97, 97, 97, 97, 97, 97, 97, 97, 97, 97, 97, 97, 97, 97, 97, 97, 97, 97, 97, 97, 97, 97, 97, 97, 97, 97, 97, 97, 97, 97, 97, 97, 97, 97, 97, 97, 97, 97, 97, 97, 97, 97, 97, 97, 97, 97, 97, 97, 97, 97, 97, 97, 97, 97, 97, 97, 97, 97, 97, 97, 97, 97, 97, 97, 97, 97, 97, 97, 97, 97, 97, 97, 97, 97, 97, 97, 97, 97, 97, 97, 97, 97, 97, 97, 97, 97, 97, 97, 97, 97, 97, 97, 97, 97, 97, 97, 97, 97, 97, 97, 97, 97, 97, 97, 97, 97, 97, 97, 97, 97, 97, 97, 97, 97, 97, 97, 97, 97, 97, 97, 97, 97, 97, 97, 97, 97, 97, 97, 97, 97, 97, 97, 97, 97, 97, 97, 97, 97, 97, 97, 97, 97, 97, 97, 97, 97, 97, 97, 97, 97, 97, 97, 97, 97, 97, 97, 97, 97, 97, 97, 97, 97, 97, 97, 97, 97, 97, 97, 97, 97, 97, 97, 97, 97, 97, 97, 97, 97, 97, 97, 97, 97, 97, 97, 97, 97, 97, 97, 97, 97, 97, 97, 97, 97, 97, 97, 97, 97, 97, 97, 97, 97, 97, 97, 97, 97, 97, 97, 97, 97, 97, 97, 97, 97, 97, 97, 97, 97, 97, 97, 97, 97, 97, 97, 97, 97, 97, 97, 97, 97, 97, 97, 97, 97, 97, 97, 97, 97, 97, 97, 97, 97, 97, 97, 97, 97, 97, 97, 97, 97, 97, 97, 97, 97] 256 16 1 = ok [34, 97, 97, 97, 97, 97, 97, 97, 97, 97, 97, 97, 97, 97, 97, 97, 97, 97, 97, 97, 97, 97, 97, 97, 97, 97, 97, 97, 97, 97, 97, 97, 97, 97, 97, 97, 97, 97, 97, 97, 97, 97, 97, 97, 97, 97, 97, 97, 97, 97, 97, 97, 97, 97, 97, 97, 97, 97, 97, 97, 97, 97, 97, 97, 97, 97, 97, 97, 97, 97, 97, 97, 97, 97, 97, 97, 97, 97, 97, 97, 97, 97, 97, 97, 97, 97, 97, 97, 97, 97, 97, 97, 97, 97, 97, 97, 97, 97, 97, 97, 97, 97, 97, 97, 97, 97, 97, 97, 97, 97, 97, 97, 97, 97, 97, 97, 97, 97, 97, 97, 97, 97, 97, 97, 97, 97, 97, 97, 97, 97, 97, 97, 97, 97, 97, 97, 97, 97, 97, 97, 97, 97, 97, 97, 97, 97, 97, 97, 97, 97, 97, 97, 97, 97, 97, 97, 97, 97, 97, 97, 97, 97, 97, 97, 97, 97, 97, 97, 97, 97, 97, 97, 97, 97, 97, 97, 97, 97, 97, 97, 97, 97, 97, 97, 97, 97, 97, 97, 97, 97, 97, 97, 97, 97, 97, 97, 97, 97, 97, 97, 97, 97, 97, 97, 97, 97, 97, 97, 97, 97, 97, 97, 97, 97, 97, 97, 97, 97, 97, 97, 97, 97, 97, 97, 97, 97, 97, 97, 97, 97, 97, 97, 97, 97, 97, 97, 97, 97, 97, 97, 97, 97, 97, 97, 97, 97, 97, 97, 97, 97, 97, 97, 97, 97, 97, 97, 34] := by decide +kernel
example : rdataToStr [25, 111, 110, 101, 32, 115, 116, 114, 105, 110, 103, 32, 109, 117, 108, 116, 105, 112, 108, 101, 32, 119, 111, 114, 100, 115] 26 16 1 = ok [34, 111, 110, 101, 32, 115, 116, 114, 105, 110, 103, 32, 109, 117, 108, 116, 105, 112, 108, 101, 32, 119, 111, 114, 100, 115, 34] := by decide +kernel
example : rdataToStr [16, 109, 117, 108, 116, 105, 112, 108, 101, 32, 115, 116, 114, 105, 110, 103, 115, 2, 111, 102, 14, 109, 117, 108, 116, 105, 112, 108, 101, 32, 119, 111, 114, 100, 115] 35 16 1 = ok [34, 109, 117, 108, 116, 105, 112, 108, 101, 32, 115, 116, 114, 105, 110, 103, 115, 34, 32, 34, 111, 102, 34, 32, 34, 109, 117, 108, 116, 105, 112, 108, 101, 32, 119, 111, 114, 100, 115, 34] := by decide +kernel
example : rdataToStr [255, 98, 98, 98, 98, 98, 98, 98, 98, 98, 98, 98, 98, 98, 98, 98, 98, 98, 98, 98, 98, 98, 98, 98, 98, 98, 98, 98, 98, 98, 98, 98, 98, 98, 98, 98, 98, 98, 98, 98, 98, 98, 98, 98, 98, 98, 98, 98, 98, 98, 98, 98, 98, 98, 98, 98, 98, 98, 98, 98, 98, 98, 98, 98, 98, 98, 98, 98, 98, 98, 98, 98, 98, 98, 98, 98, 98, 98, 98, 98, 98, 98, 98, 98, 98, 98, 98, 98, 98, 98, 98, 98, 98, 98, 98, 98, 98, 98, 98, 98, 98, 98, 98, 98, 98, 98, 98, 98, 98, 98, 98, 98, 98, 98, 98, 98, 98, 98, 98, 98, 98, 98, 98, 98, 98, 98, 98, 98, 98, 98, 98, 98, 98, 98, 98, 98, 98, 98, 98, 98, 98, 98, 98, 98, 98, 98, 98, 98, 98, 98, 98, 98, 98, 98, 98, 98, 98, 98, 98, 98, 98, 98, 98, 98, 98, 98, 98, 98, 98, 98, 98, 98, 98, 98, 98, 98, 98, 98, 98, 98, 98, 98, 98, 98, 98, 98, 98, 98, 98, 98, 98, 98, 98, 98, 98, 98, 98, 98, 98, 98, 98, 98, 98, 98, 98, 98, 98, 98, 98, 98, 98, 98, 98, 98, 98, 98, 98, 98, 98, 98, 98, 98, 98, 98, 98, 98, 98, 98, 98, 98, 98, 98, 98, 98, 98, 98, 98, 98, 98, 98, 98, 98, 98, 98, 98, 98, 98, 98, 98, 98, 98, 98, 98, 98, 98, 98, 255, 99, 99, 99, 99, 99, 99, 99, 99, 99, 99, 99, 99, 99, 99, 99, 99, 99, 99, 99, 99, 99, 99, 99, 99, 99, 99, 99, 99, 99, 99, 99, 99, 99, 99, 99, 99, 99, 99, 99, 99, 99, 99, 99, 99, 99, 99, 99, 99, 99, 99, 99, 99, 99, 99, 99, 99, 99, 99, 99, 99, 99, 99, 99, 99, 99, 99, 99, 99, 99, 99, 99, 99, 99, 99, 99, 99, 99, 99, 99, 99, 99, 99, 99, 99, 99, 99, 99, 99, 99, 99, 99, 99, 99, 99, 99, 99, 99, 99, 99, 99, 99, 99, 99, 99, 99, 99, 99, 99, 99, 99, 99, 99, 99, 99, 99, 99, 99, 99, 99, 99, 99, 99, 99, 99, 99, 99, 99, 99, 99, 99, 99, 99, 99, 99, 99, 99, 99, 99, 99, 99, 99, 99, 99, 99, 99, 99, 99, 99, 99, 99, 99, 99, 99, 99, 99, 99, 99, 99, 99, 99, 99, 99, 99, 99, 99, 99, 99, 99, 99, 99, 99, 99, 99, 99, 99, 99, 99, 99, 99, 99, 99, 99, 99, 99, 99, 99, 99, 99, 99, 99, 99, 99, 99, 99, 99, 99, 99, 99, 99, 99, 99, 99, 99, 99, 99, 99, 99, 99, 99, 99, 99, 99, 99, 99, 99, 99, 99, 99, 99, 99, 99, 99, 99, 99, 99, 99, 99, 99, 99, 99, 99, 99, 99, 99, 99, 99, 99, 99, 99, 99, 99, 99, 99, 99, 99, 99, 99, 99, 99, 99, 99, 99, 99, 99, 99, 255, 100, 100, 100, 100, 100, 100, 100, 100, 100, 100, 100, 100, 100, 100, 100, 100, 100, 100, 100, 100, 100, 100, 100, 100, 100, 100, 100, 100, 100, 100, 100, 100, 100, 100, 100, 100, 100, 100, 100, 100, 100, 100, 100, 100, 100, 100, 100, 100, 100, 100, 100, 100, 100, 100, 100, 100, 100, 100, 100, 100, 100, 100, 100, 100, 100, 100, 100, 100, 100, 100, 100, 100, 100, 100, 100, 100, 100, 100, 100, 100, 100, 100, 100, 100, 100, 100, 100, 100, 100, 100, 100, 100, 100, 100, 100, 100, 100, 100, 100, 100, 100, 100, 100, 100, 100, 100, 100, 100, 100, 100, 100, 100, 100, 100, 100, 100, 100, 100, 100, 100, 100, 100, 100, 100, 100, 100, 100, 100, 100, 100, 100, 100, 100, 100, 100, 100, 100, 100, 100, 100, 100, 100, 100, 100, 100, 100, 100, 100, 100, 100, 100, 100, 100, 100, 100, 100, 100, 100, 100, 100, 100, 100, 100, 100, 100, 100, 100, 100, 100, 100, 100, 100, 100, 100, 100, 100, 100, 100, 100, 100, 100, 100, 100, 100, 100, 100, 100, 100, 100, 100, 100, 100, 100, 100, 100, 100, 100, 100, 100, 100, 100, 100, 100, 100, 100, 100, 100, 100, 100, 100, 100, 100, 100, 100, 100, 100, 100, 100, 100, 100, 100, 100, 100, 100, 100, 100, 100, 100, 100, 100, 100, 100, 100, 100, 100, 100, 100, 100, 100, 100, 100, 100, 100, 100, 100, 100, 100, 100, 100, 100, 100, 100, 100, 100, 100] 768 16 1 = ok [34, 98, 98, 98, 98, 98, 98, 98, 98, 98, 98, 98, 98, 98, 98, 98, 98, 98, 98, 98, 98, 98, 98, 98, 98, 98, 98, 98, 98, 98, 98, 98, 98, 98, 98, 98, 98, 98, 98, 98, 98, 98, 98, 98, 98, 98, 98, 98, 98, 98, 98, 98, 98, 98, 98, 98, 98, 98, 98, 98, 98, 98, 98, 98, 98, 98, 98, 98, 98, 98, 98, 98, 98, 98, 98, 98, 98, 98, 98, 98, 98, 98, 98, 98, 98, 98, 98, 98, 98, 98, 98, 98, 98, 98, 98, 98, 98, 98, 98, 98, 98, 98, 98, 98, 98, 98, 98, 98, 98, 98, 98, 98, 98, 98, 98, 98, 98, 98, 98, 98, 98, 98, 98, 98, 98, 98, 98, 98, 98, 98, 98, 98, 98, 98, 98, 98, 98, 98, 98, 98, 98, 98, 98, 98, 98, 98, 98, 98, 98, 98, 98, 98, 98, 98, 98, 98, 98, 98, 98, 98, 98, 98, 98, 98, 98, 98, 98, 98, 98, 98, 98, 98, 98, 98, 98, 98, 98, 98, 98, 98, 98, 98, 98, 98, 98, 98, 98, 98, 98, 98, 98, 98, 98, 98, 98, 98, 98, 98, 98, 98, 98, 98, 98, 98, 98, 98, 98, 98, 98, 98, 98, 98, 98, 98, 98, 98, 98, 98, 98, 98, 98, 98, 98, 98, 98, 98, 98, 98, 98, 98, 98, 98, 98, 98, 98, 98, 98, 98, 98, 98, 98, 98, 98, 98, 98, 98, 98, 98, 98, 98, 98, 98, 98, 98, 98, 98, 34, 32, 34, 99, 99, 99, 99, 99, 99, 99, 99, 99, 99, 99, 99, 99, 99, 99, 99, 99, 99, 99, 99, 99, 99, 99, 99, 99, 99, 99, 99, 99, 99, 99, 99, 99, 99, 99, 99, 99, 99, 99, 99, 99, 99, 99, 99, 99, 99, 99, 99, 99, 99, 99, 99, 99, 99, 99, 99, 99, 99, 99, 99, 99, 99, 99, 99, 99, 99, 99, 99, 99, 99, 99, 99, 99, 99, 99, 99, 99, 99, 99, 99, 99, 99, 99, 99, 99, 99, 99, 99, 99, 99, 99, 99, 99, 99, 99, 99, 99, 99, 99, 99, 99, 99, 99, 99, 99, 99, 99, 99, 99, 99, 99, 99, 99, 99, 99, 99, 99, 99, 99, 99, 99, 99, 99, 99, 99, 99, 99, 99, 99, 99, 99, 99, 99, 99, 99, 99, 99, 99, 99, 99, 99, 99, 99, 99, 99, 99, 99, 99, 99, 99, 99, 99, 99, 99, 99, 99, 99, 99, 99, 99, 99, 99, 99, 99, 99, 99, 99, 99, 99, 99, 99, 99, 99, 99, 99, 99, 99, 99, 99, 99, 99, 99, 99, 99, 99, 99, 99, 99, 99, 99, 99, 99, 99, 99, 99, 99, 99, 99, 99, 99, 99, 99, 99, 99, 99, 99, 99, 99, 99, 99, 99, 99, 99, 99, 99, 99, 99, 99, 99, 99, 99, 99, 99, 99, 99, 99, 99, 99, 99, 99, 99, 99, 99, 99, 99, 99, 99, 99, 99, 99, 99, 99, 99, 99, 99, 99, 99, 99, 99, 99, 99, 99, 99, 99, 99, 34, 32, 34, 100, 100, 100, 100, 100, 100, 100, 100, 100, 100, 100, 100, 100, 100, 100, 100, 100, 100, 100, 100, 100, 100, 100, 100, 100, 100, 100, 100, 100, 100, 100, 100, 100, 100, 100, 100, 100, 100, 100, 100, 100, 100, 100, 100, 100, 100, 100, 100, 100, 100, 100, 100, 100, 100, 100, 100, 100, 100, 100, 100, 100, 100, 100, 100, 100, 100, 100, 100, 100, 100, 100, 100, 100, 100, 100, 100, 100, 100, 100, 100, 100, 100, 100, 100, 100, 100, 100, 100, 100, 100, 100, 100, 100, 100, 100, 100, 100, 100, 100, 100, 100, 100, 100, 100, 100, 100, 100, 100, 100, 100, 100, 100, 100, 100, 100, 100, 100, 100, 100, 100, 100, 100, 100, 100, 100, 100, 100, 100, 100, 100, 100, 100, 100, 100, 100, 100, 100, 100, 100, 100, 100, 100, 100, 100, 100, 100, 100, 100, 100, 100, 100, 100, 100, 100, 100, 100, 100, 100, 100, 100, 100, 100, 100, 100, 100, 100, 100, 100, 100, 100, 100, 100, 100, 100, 100, 100, 100, 100, 100, 100, 100, 100, 100, 100, 100, 100, 100, 100, 100, 100, 100, 100, 100, 100, 100, 100, 100, 100, 100, 100, 100, 100, 100, 100, 100, 100, 100, 100, 100, 100, 100, 100, 100, 100, 100, 100, 100, 100, 100, 100, 100, 100, 100, 100, 100, 100, 100, 100, 100, 100, 100, 100, 100, 100, 100, 100, 100, 100, 100, 100, 100, 100, 100, 100, 100, 100, 100, 100, 100, 100, 100, 100, 100, 100, 100, 34] := by decide +kernel
example : rdataToStr [254, 118, 61, 68, 75, 73, 77, 49, 59, 32, 107, 61, 114, 115, 97, 59, 32, 112, 61, 77, 73, 73, 66, 73, 106, 65, 78, 66, 103, 107, 113, 104, 107, 105, 71, 57, 119, 48, 66, 65, 81, 69, 70, 65, 65, 79, 67, 65, 81, 56, 65, 77, 73, 73, 66, 67, 103, 75, 67, 65, 81, 69, 65, 50, 85, 77, 102, 82, 69, 118, 108, 103, 97, 106, 100, 83, 112, 51, 106, 118, 49, 116, 74, 57, 110, 76, 112, 105, 47, 109, 82, 89, 110, 71, 121, 75, 67, 51, 105, 110, 69, 81, 57, 97, 55, 122, 113, 85, 106, 76, 113, 47, 121, 88, 117, 107, 103, 112, 88, 115, 57, 65, 69, 72, 108, 118, 66, 118, 105, 111, 120, 108, 103, 65, 86, 67, 80, 81, 81, 115, 117, 99, 49, 120, 112, 57, 43, 75, 88, 81, 71, 103, 74, 56, 106, 84, 115, 110, 53, 79, 116, 75, 109, 56, 117, 43, 89, 66, 67, 116, 54, 79, 102, 118, 112, 101, 67, 112, 118, 116, 48, 108, 57, 74, 88, 77, 77, 72, 66, 78, 89, 86, 52, 99, 48, 88, 105, 80, 69, 53, 82, 72, 88, 50, 108, 116, 73, 48, 65, 118, 50, 48, 67, 102, 69, 121, 43, 118, 77, 101, 99, 112, 70, 116, 86, 68, 103, 52, 114, 77, 110, 103, 106, 76, 119, 115, 47, 114, 111, 54, 113, 84, 54, 51, 83, 50, 48, 65, 52, 122, 121, 86, 115, 47, 86, 156, 49, 57, 87, 87, 53, 70, 50, 76, 117, 108, 103, 118, 43, 108, 43, 69, 74, 122, 122, 57, 88, 117, 109, 109, 73, 74, 72, 79, 108, 85, 53, 110, 53, 67, 104, 99, 87, 85, 51, 82, 119, 53, 82, 86, 71, 84, 116, 78, 106, 84, 90, 110, 70, 85, 97, 78, 88, 108, 121, 51, 102, 87, 48, 97, 104, 75, 99, 71, 53, 81, 99, 51, 101, 48, 82, 104, 122, 116, 112, 53, 55, 74, 74, 81, 84, 108, 51, 79, 109, 72, 105, 77, 82, 53, 99, 72, 115, 67, 110, 114, 108, 49, 86, 110, 66, 105, 51, 107, 97, 79, 111, 81, 66, 89, 115, 83, 117, 66, 109, 43, 75, 82, 104, 77, 73, 119, 47, 88, 57, 119, 107, 76, 89, 54, 55, 86, 76, 100, 107, 114, 119, 108, 88, 51, 120, 120, 115, 112, 54, 119, 73, 68, 65, 81, 65, 66] 412 16 1 = ok [34, 118, 61, 68, 75, 73, 77, 49, 59, 32, 107, 61, 114, 115, 97, 59, 32, 112, 61, 77, 73, 73, 66, 73, 106, 65, 78, 66, 103, 107, 113, 104, 107, 105, 71, 57, 119, 48, 66, 65, 81, 69, 70, 65, 65, 79, 67, 65, 81, 56, 65, 77, 73, 73, 66, 67, 103, 75, 67, 65, 81, 69, 65, 50, 85, 77, 102, 82, 69, 118, 108, 103, 97, 106, 100, 83, 112, 51, 106, 118, 49, 116, 74, 57, 110, 76, 112, 105, 47, 109, 82, 89, 110, 71, 121, 75, 67, 51, 105, 110, 69, 81, 57, 97, 55, 122, 113, 85, 106, 76, 113, 47, 121, 88, 117, 107, 103, 112, 88, 115, 57, 65, 69, 72, 108, 118, 66, 118, 105, 111, 120, 108, 103, 65, 86, 67, 80, 81, 81, 115, 117, 99, 49, 120, 112, 57, 43, 75, 88, 81, 71, 103, 74, 56, 106, 84, 115, 110, 53, 79, 116, 75, 109, 56, 117, 43, 89, 66, 67, 116, 54, 79, 102, 118, 112, 101, 67, 112, 118, 116, 48, 108, 57, 74, 88, 77, 77, 72, 66, 78, 89, 86, 52, 99, 48, 88, 105, 80, 69, 53, 82, 72, 88, 50, 108, 116, 73, 48, 65, 118, 50, 48, 67, 102, 69, 121, 43, 118, 77, 101, 99, 112, 70, 116, 86, 68, 103, 52, 114, 77, 110, 103, 106, 76, 119, 115, 47, 114, 111, 54, 113, 84, 54, 51, 83, 50, 48, 65, 52, 122, 121, 86, 115, 47, 86, 34, 32, 34, 49, 57, 87, 87, 53, 70, 50, 76, 117, 108, 103, 118, 43, 108, 43, 69, 74, 122, 122, 57, 88, 117, 109, 109, 73, 74, 72, 79, 108, 85, 53, 110, 53, 67, 104, 99, 87, 85, 51, 82, 119, 53, 82, 86, 71, 84, 116, 78, 106, 84, 90, 110, 70, 85, 97, 78, 88, 108, 121, 51, 102, 87, 48, 97, 104, 75, 99, 71, 53, 81, 99, 51, 101, 48, 82, 104, 122, 116, 112, 53, 55, 74, 74, 81, 84, 108, 51, 79, 109, 72, 105, 77, 82, 53, 99, 72, 115, 67, 110, 114, 108, 49, 86, 110, 66, 105, 51, 107, 97, 79, 111, 81, 66, 89, 115, 83, 117, 66, 109, 43, 75, 82, 104, 77, 73, 119, 47, 88, 57, 119, 107, 76, 89, 54, 55, 86, 76, 100, 107, 114, 119, 108, 88, 51, 120, 120, 115, 112, 54, 119, 73, 68, 65, 81, 65, 66, 34] := by decide +kernel
example : rdataToStr [17, 118, 61, 115, 112, 102, 49, 32, 46, 46, 46, 46, 32, 102, 105, 114, 115, 116, 16, 115, 101, 99, 111, 110, 100, 32, 115, 116, 114, 105, 110, 103, 46, 46, 46] 35 16 1 = ok [34, 118, 61, 115, 112, 102, 49, 32, 46, 46, 46, 46, 32, 102, 105, 114, 115, 116, 34, 32, 34, 115, 101, 99, 111, 110, 100, 32, 115, 116, 114, 105, 110, 103, 46, 46, 46, 34] := by decide +kernel
example : rdataToStr [99, 118, 61, 115, 112, 102, 49, 32, 97, 32, 109, 120, 32, 105, 112, 52, 58, 50, 48, 52, 46, 49, 53, 50, 46, 49, 56, 52, 46, 48, 47, 50, 49, 32, 105, 112, 52, 58, 49, 52, 57, 46, 50, 48, 46, 48, 46, 48, 47, 49, 54, 32, 105, 112, 54, 58, 50, 48, 48, 49, 58, 48, 52, 70, 56, 58, 58, 48, 47, 51, 50, 32, 105, 112, 54, 58, 50, 48, 48, 49, 58, 53, 48, 48, 58, 54, 48, 58, 58, 54, 53, 47, 49, 50, 56, 32, 126, 97, 108, 108] 100 99 1 = ok [34, 118, 61, 115, 112, 102, 49, 32, 97, 32, 109, 120, 32, 105, 112, 52, 58, 50, 48, 52, 46, 49, 53, 50, 46, 49, 56, 52, 46, 48, 47, 50, 49, 32, 105, 112, 52, 58, 49, 52, 57, 46, 50, 48, 46, 48, 46, 48, 47, 49, 54, 32, 105, 112, 54, 58, 50, 48, 48, 49, 58, 48, 52, 70, 56, 58, 58, 48, 47, 51, 50, 32, 105, 112, 54, 58, 50, 48, 48, 49, 58, 53, 48, 48, 58, 54, 48, 58, 58, 54, 53, 47, 49, 50, 56, 32, 126, 97, 108, 108, 34] := by decide +kernel
example : rdataToStr [26, 80, 108, 101, 97, 115, 101, 32, 115, 116, 111, 112, 32, 97, 115, 107, 105, 110, 103, 32, 102, 111, 114, 32, 65, 78, 89, 31, 83, 101, 101, 32, 100, 114, 97, 102, 116, 45, 105, 101, 116, 102, 45, 100, 110, 115, 111, 112, 45, 114, 101, 102, 117, 115, 101, 45, 97, 110, 121] 59 13 1 = ok [34, 80, 108, 101, 97, 115, 101, 32, 115, 116, 111, 112, 32, 97, 115, 107, 105, 110, 103, 32, 102, 111, 114, 32, 65, 78, 89, 34, 32, 34, 83, 101, 101, 32, 100, 114, 97, 102, 116, 45, 105, 101, 116, 102, 45, 100, 110, 115, 111, 112, 45, 114, 101, 102, 117, 115, 101, 45, 97, 110, 121, 34] := by decide +kernel
example : rdataToStr [0, 0, 0, 66, 0, 3, 0, 4, 96, 0, 0, 8] 12 62 1 = ok [54, 54, 32, 51, 32, 65, 32, 78, 83, 32, 65, 65, 65, 65] := by decide +kernel
example : rdataToStr [171, 205, 239, 1, 2, 3] 6 108 1 = ok [97, 98, 45, 99, 100, 45, 101, 102, 45, 48, 49, 45, 48, 50, 45, 48, 51] := by decide +kernel
example : rdataToStr [171, 205, 239, 1, 2, 3, 4, 5] 8 109 1 = ok [97, 98, 45, 99, 100, 45, 101, 102, 45, 48, 49, 45, 48, 50, 45, 48, 51, 45, 48, 52, 45, 48, 53] := by decide +kernel
example : rdataToStr [1, 2, 3, 4, 5, 6, 7, 8] 8 61 1 = ok [65, 81, 73, 68, 66, 65, 85, 71, 66, 119, 103, 61] := by decide +kernel
example : rdataToStr [1, 0, 3, 5, 1, 3, 210, 42, 108, 167, 127, 53, 184, 147, 32, 111, 211, 94, 76, 80, 109, 131, 120, 132, 55, 9, 185, 126, 4, 22, 71, 225, 191, 244, 61, 141, 100, 198, 73, 175, 30, 55, 25, 115, 201, 232, 145, 252, 227, 223, 81, 154, 140, 132, 10, 99, 238, 66, 166, 210, 235, 221, 187, 151, 3, 93, 33, 90, 164, 228, 23, 177, 250, 69, 250, 17, 169, 116, 30, 162, 9, 140, 29, 250, 95, 181, 254, 179, 50, 253, 75, 200, 21, 32, 137, 174, 243, 107, 166, 68, 204, 226, 65, 59, 59, 114, 190, 24, 203, 239, 141, 162, 83, 244, 233, 61, 33, 3, 134, 109, 146, 52, 162, 226, 141, 245, 41, 166, 125, 84, 104, 219, 239, 227] 134 60 1 = ok [50, 53, 54, 32, 51, 32, 53, 32, 65, 81, 80, 83, 75, 109, 121, 110, 102, 122, 87, 52, 107, 121, 66, 118, 48, 49, 53, 77, 85, 71, 50, 68, 101, 73, 81, 51, 67, 98, 108, 43, 66, 66, 90, 72, 52, 98, 47, 48, 80, 89, 49, 107, 120, 107, 109, 118, 72, 106, 99, 90, 99, 56, 110, 111, 107, 102, 122, 106, 51, 49, 71, 97, 106, 73, 81, 75, 89, 43, 53, 67, 112, 116, 76, 114, 51, 98, 117, 88, 65, 49, 48, 104, 87, 113, 84, 107, 70, 55, 72, 54, 82, 102, 111, 82, 113, 88, 81, 101, 111, 103, 109, 77, 72, 102, 112, 102, 116, 102, 54, 122, 77, 118, 49, 76, 121, 66, 85, 103, 105, 97, 55, 122, 97, 54, 90, 69, 122, 79, 74, 66, 79, 122, 116, 121, 118, 104, 106, 76, 55, 52, 50, 105, 85, 47, 84, 112, 80, 83, 69, 68, 104, 109, 50, 83, 78, 75, 76, 105, 106, 102, 85, 112, 112, 110, 49, 85, 97, 78, 118, 118, 52, 119, 61, 61] := by decide +kernel
example : rdataToStr [1, 0, 3, 5, 1, 3, 210, 42, 108, 167, 127, 53, 184, 147, 32, 111, 211, 94, 76, 80, 109, 131, 120, 132, 55, 9, 185, 126, 4, 22, 71, 225, 191, 244, 61, 141, 100, 198, 73, 175, 30, 55, 25, 115, 201, 232, 145, 252, 227, 223, 81, 154, 140, 132, 10, 99, 238, 66, 166, 210, 235, 221, 187, 151, 3, 93, 33, 90, 164, 228, 23, 177, 250, 69, 250, 17, 169, 116, 30, 162, 9, 140, 29, 250, 95, 181, 254, 179, 50, 253, 75, 200, 21, 32, 137, 174, 243, 107, 166, 68, 204, 226, 65, 59, 59, 114, 190, 24, 203, 239, 141, 162, 83, 244, 233, 61, 33, 3, 134, 109, 146, 52, 162, 226, 141, 245, 41, 166, 125, 84, 104, 219, 239, 227] 134 48 1 = ok [50, 53, 54, 32, 51, 32, 53, 32, 65, 81, 80, 83, 75, 109, 121, 110, 102, 122, 87, 52, 107, 121, 66, 118, 48, 49, 53, 77, 85, 71, 50, 68, 101, 73, 81, 51, 67, 98, 108, 43, 66, 66, 90, 72, 52, 98, 47, 48, 80, 89, 49, 107, 120, 107, 109, 118, 72, 106, 99, 90, 99, 56, 110, 111, 107, 102, 122, 106, 51, 49, 71, 97, 106, 73, 81, 75, 89, 43, 53, 67, 112, 116, 76, 114, 51, 98, 117, 88, 65, 49, 48, 104, 87, 113, 84, 107, 70, 55, 72, 54, 82, 102, 111, 82, 113, 88, 81, 101, 111, 103, 109, 77, 72, 102, 112, 102, 116, 102, 54, 122, 77, 118, 49, 76, 121, 66, 85, 103, 105, 97, 55, 122, 97, 54, 90, 69, 122, 79, 74, 66, 79, 122, 116, 121, 118, 104, 106, 76, 55, 52, 50, 105, 85, 47, 84, 112, 80, 83, 69, 68, 104, 109, 50, 83, 78, 75, 76, 105, 106, 102, 85, 112, 112, 110, 49, 85, 97, 78, 118, 118, 52, 119, 61, 61] := by decide +kernel
example : rdataToStr [236, 69, 5, 1, 43, 177, 131, 175, 95, 34, 88, 129, 121, 165, 59, 10, 152, 99, 31, 173, 26, 41, 33, 24] 24 43 1 = ok [54, 48, 52, 56, 53, 32, 53, 32, 49, 32, 50, 66, 66, 49, 56, 51, 65, 70, 53, 70, 50, 50, 53, 56, 56, 49, 55, 57, 65, 53, 51, 66, 48, 65, 57, 56, 54, 51, 49, 70, 65, 68, 49, 65, 50, 57, 50, 49, 49, 56] := by decide +kernel
example : rdataToStr [236, 69, 5, 1, 43, 177, 131, 175, 95, 34, 88, 129, 121, 165, 59, 10, 152, 99, 31, 173, 26, 41, 33, 24] 24 59 1 = ok [54, 48, 52, 56, 53, 32, 53, 32, 49, 32, 50, 66, 66, 49, 56, 51, 65, 70, 53, 70, 50, 50, 53, 56, 56, 49, 55, 57, 65, 53, 51, 66, 48, 65, 57, 56, 54, 51, 49, 70, 65, 68, 49, 65, 50, 57, 50, 49, 49, 56] := by decide +kernel
example : rdataToStr [0, 0, 1, 210, 171, 222, 36, 13, 124, 211, 238, 107, 75, 40, 197, 77, 240, 52, 185, 121, 131, 161, 209, 110, 138, 65, 14, 69, 97, 203, 16, 102, 24, 233, 113] 35 52 1 = ok [48, 32, 48, 32, 49, 32, 68, 50, 65, 66, 68, 69, 50, 52, 48, 68, 55, 67, 68, 51, 69, 69, 54, 66, 52, 66, 50, 56, 67, 53, 52, 68, 70, 48, 51, 52, 66, 57, 55, 57, 56, 51, 65, 49, 68, 49, 54, 69, 56, 65, 52, 49, 48, 69, 52, 53, 54, 49, 67, 66, 49, 48, 54, 54, 49, 56, 69, 57, 55, 49] := by decide +kernel
example : rdataToStr [3, 102, 115, 105, 2, 105, 111, 0, 0, 1, 64, 1, 1, 64, 128, 1, 64] 17 47 1 = ok [102, 115, 105, 46, 105, 111, 46, 32, 65, 32, 67, 65, 65, 32, 68, 76, 86] := by decide +kernel
example : rdataToStr [0, 0, 3, 102, 111, 111, 7, 101, 120, 97, 109, 112, 108, 101, 3, 99, 111, 109, 0] 19 65 1 = ok [48, 32, 102, 111, 111, 46, 101, 120, 97, 109, 112, 108, 101, 46, 99, 111, 109, 46] := by decide +kernel
example : rdataToStr [0, 1, 0] 3 65 1 = ok [49, 32, 46] := by decide +kernel
example : rdataToStr [0, 16, 3, 102, 111, 111, 7, 101, 120, 97, 109, 112, 108, 101, 3, 99, 111, 109, 0, 0, 3, 0, 2, 0, 53] 25 64 1 = ok [49, 54, 32, 102, 111, 111, 46, 101, 120, 97, 109, 112, 108, 101, 46, 99, 111, 109, 46, 32, 112, 111, 114, 116, 61, 53, 51] := by decide +kernel
example : rdataToStr [0, 1, 3, 102, 111, 111, 7, 101, 120, 97, 109, 112, 108, 101, 3, 99, 111, 109, 0, 2, 155, 0, 5, 104, 101, 108, 108, 111] 28 64 1 = ok [49, 32, 102, 111, 111, 46, 101, 120, 97, 109, 112, 108, 101, 46, 99, 111, 109, 46, 32, 107, 101, 121, 54, 54, 55, 61, 34, 104, 101, 108, 108, 111, 34] := by decide +kernel
example : rdataToStr [0, 1, 3, 102, 111, 111, 7, 101, 120, 97, 109, 112, 108, 101, 3, 99, 111, 109, 0, 2, 155, 0, 9, 104, 101, 108, 108, 111, 210, 113, 111, 111] 32 64 1 = ok [49, 32, 102, 111, 111, 46, 101, 120, 97, 109, 112, 108, 101, 46, 99, 111, 109, 46, 32, 107, 101, 121, 54, 54, 55, 61, 34, 104, 101, 108, 108, 111, 92, 50, 49, 48, 113, 111, 111, 34] := by decide +kernel
example : rdataToStr [0, 1, 3, 102, 111, 111, 7, 101, 120, 97, 109, 112, 108, 101, 3, 99, 111, 109, 0, 0, 6, 0, 32, 32, 1, 13, 184, 0, 0, 0, 0, 0, 0, 0, 0, 0, 0, 0, 1, 32, 1, 13, 184, 0, 0, 0, 0, 0, 0, 0, 0, 0, 83, 0, 1] 55 64 1 = ok [49, 32, 102, 111, 111, 46, 101, 120, 97, 109, 112, 108, 101, 46, 99, 111, 109, 46, 32, 105, 112, 118, 54, 104, 105, 110, 116, 61, 50, 48, 48, 49, 58, 100, 98, 56, 58, 58, 49, 44, 50, 48, 48, 49, 58, 100, 98, 56, 58, 58, 53, 51, 58, 49] := by decide +kernel
example : rdataToStr [0, 1, 7, 101, 120, 97, 109, 112, 108, 101, 3, 99, 111, 109, 0, 0, 6, 0, 16, 0, 0, 0, 0, 0, 0, 0, 0, 0, 0, 255, 255, 198, 51, 100, 100] 35 64 1 = ok [49, 32, 101, 120, 97, 109, 112, 108, 101, 46, 99, 111, 109, 46, 32, 105, 112, 118, 54, 104, 105, 110, 116, 61, 58, 58, 102, 102, 102, 102, 58, 49, 57, 56, 46, 53, 49, 46, 49, 48, 48, 46, 49, 48, 48] := by decide +kernel
example : rdataToStr [0, 16, 3, 102, 111, 111, 7, 101, 120, 97, 109, 112, 108, 101, 3, 111, 114, 103, 0, 0, 1, 0, 12, 8, 102, 92, 111, 111, 44, 98, 97, 114, 2, 104, 50] 35 64 1 = ok [49, 54, 32, 102, 111, 111, 46, 101, 120, 97, 109, 112, 108, 101, 46, 111, 114, 103, 46, 32, 97, 108, 112, 110, 61, 34, 102, 92, 92, 92, 92, 111, 111, 92, 92, 44, 98, 97, 114, 44, 104, 50, 34] := by decide +kernel
example : rdataToStr [0, 1, 0, 0, 1, 0, 3, 2, 104, 50, 0, 4, 0, 4, 192, 168, 0, 1] 18 65 1 = ok [49, 32, 46, 32, 97, 108, 112, 110, 61, 34, 104, 50, 34, 32, 105, 112, 118, 52, 104, 105, 110, 116, 61, 49, 57, 50, 46, 49, 54, 56, 46, 48, 46, 49] := by decide +kernel
example : rdataToStr [0, 1, 0, 0, 1, 0, 3, 2, 104, 50, 0, 9, 0, 3, 97, 110, 121] 17 65 1 = ok [49, 32, 46, 32, 97, 108, 112, 110, 61, 34, 104, 50, 34, 32, 107, 101, 121, 57, 61, 34, 97, 110, 121, 34] := by decide +kernel
example : rdataToStr [0, 9, 105, 115, 115, 117, 101, 119, 105, 108, 100, 108, 101, 116, 115, 101, 110, 99, 114, 121, 112, 116, 46, 111, 114, 103] 26 257 1 = ok [48, 32, 34, 105, 115, 115, 117, 101, 119, 105, 108, 100, 34, 32, 34, 108, 101, 116, 115, 101, 110, 99, 114, 121, 112, 116, 46, 111, 114, 103, 34] := by decide +kernel
example : rdataToStr [0, 8, 0, 7, 0, 1, 24, 22, 199, 30, 228] 11 41 1 = ok [67, 76, 73, 69, 78, 84, 45, 83, 85, 66, 78, 69, 84, 58, 32, 49, 57, 57, 46, 51, 48, 46, 50, 50, 56, 46, 48, 47, 50, 52, 47, 50, 50] := by decide +kernel
example : rdataToStr [0, 8, 0, 11, 0, 2, 56, 48, 38, 32, 1, 28, 240, 8, 0] 15 41 1 = ok [67, 76, 73, 69, 78, 84, 45, 83, 85, 66, 78, 69, 84, 58, 32, 50, 54, 50, 48, 58, 49, 49, 99, 58, 102, 48, 48, 56, 58, 58, 47, 53, 54, 47, 52, 56] := by decide +kernel
example : rdataToStr [0, 15, 0, 53, 0, 9, 110, 111, 32, 83, 69, 80, 32, 109, 97, 116, 99, 104, 105, 110, 103, 32, 116, 104, 101, 32, 68, 83, 32, 102, 111, 117, 110, 100, 32, 102, 111, 114, 32, 100, 110, 115, 115, 101, 99, 45, 102, 97, 105, 108, 101, 100, 46, 111, 114, 103, 46] 57 41 1 = ok [69, 68, 69, 58, 32, 57, 32, 40, 68, 78, 83, 75, 69, 89, 32, 77, 105, 115, 115, 105, 110, 103, 41, 58, 32, 40, 110, 111, 32, 83, 69, 80, 32, 109, 97, 116, 99, 104, 105, 110, 103, 32, 116, 104, 101, 32, 68, 83, 32, 102, 111, 117, 110, 100, 32, 102, 111, 114, 32, 100, 110, 115, 115, 101, 99, 45, 102, 97, 105, 108, 101, 100, 46, 111, 114, 103, 46, 41] := by decide +kernel
example : rdataToStr [0, 15, 0, 49, 192, 0, 84, 104, 101, 115, 101, 32, 99, 104, 97, 114, 115, 32, 97, 114, 101, 32, 112, 114, 105, 110, 116, 97, 98, 108, 101, 46, 32, 84, 104, 101, 115, 101, 32, 97, 114, 101, 32, 110, 111, 116, 58, 0, 2, 13, 8, 3, 4] 53 41 1 = ok [69, 68, 69, 58, 32, 52, 57, 49, 53, 50, 58, 32, 40, 84, 104, 101, 115, 101, 32, 99, 104, 97, 114, 115, 32, 97, 114, 101, 32, 112, 114, 105, 110, 116, 97, 98, 108, 101, 46, 32, 84, 104, 101, 115, 101, 32, 97, 114, 101, 32, 110, 111, 116, 58, 46, 46, 46, 46, 46, 46, 41] := by decide +kernel
example : rdataToStr [0, 6, 0, 3, 1, 2, 4, 0, 7, 0, 1, 1] 12 41 1 = ok [79, 80, 84, 61, 54, 58, 32, 48, 49, 32, 48, 50, 32, 48, 52, 32, 40, 34, 46, 46, 46, 34, 41, 10, 79, 80, 84, 61, 55, 58, 32, 48, 49, 32, 40, 34, 46, 34, 41] := by decide +kernel
example : rdataToStr [0, 5, 0, 3] 4 41 1 = ok [79, 80, 84, 61, 53, 58, 32, 35, 35, 35, 32, 80, 65, 82, 83, 69, 32, 69, 82, 82, 79, 82, 32, 35, 35, 35] := by decide +kernel
example : rdataToStr [0, 8, 0, 7, 0, 1, 24, 199, 30, 228] 10 41 1 = ok [67, 76, 73, 69, 78, 84, 45, 83, 85, 66, 78, 69, 84, 58, 32, 35, 35, 35, 32, 80, 65, 82, 83, 69, 32, 69, 82, 82, 79, 82, 32, 35, 35, 35] := by decide +kernel
example : rdataToStr [0, 8, 0, 7, 0, 1, 24, 22] 8 41 1 = ok [67, 76, 73, 69, 78, 84, 45, 83, 85, 66, 78, 69, 84, 58, 32, 35, 35, 35, 32, 80, 65, 82, 83, 69, 32, 69, 82, 82, 79, 82, 32, 35, 35, 35] := by decide +kernel
example : rdataToStr [0, 8, 0, 11, 0, 1, 56, 48, 38, 32, 1, 28, 240, 8, 0] 15 41 1 = ok [67, 76, 73, 69, 78, 84, 45, 83, 85, 66, 78, 69, 84, 58, 32, 32, 35, 35, 35, 32, 80, 65, 82, 83, 69, 32, 69, 82, 82, 79, 82, 32, 35, 49, 50, 32, 35, 35, 35] := by decide +kernel
example : rdataToStr [0, 8, 0, 11, 0, 3, 56, 48, 38, 32, 1, 28, 240, 8, 0] 15 41 1 = ok [67, 76, 73, 69, 78, 84, 45, 83, 85, 66, 78, 69, 84, 58, 32, 32, 35, 35, 35, 32, 80, 65, 82, 83, 69, 32, 69, 82, 82, 79, 82, 32, 35, 49, 50, 32, 35, 35, 35] := by decide +kernel
example : rdataToStr [0, 15, 0, 1, 0] 5 41 1 = ok [69, 68, 69, 58, 32, 32, 35, 35, 35, 32, 80, 65, 82, 83, 69, 32, 69, 82, 82, 79, 82, 32, 35, 49, 50, 32, 35, 35, 35] := by decide +kernel
example : rdataToStr [0, 8, 0, 4, 0, 1, 0, 0] 8 41 1 = ok [67, 76, 73, 69, 78, 84, 45, 83, 85, 66, 78, 69, 84, 58, 32, 48, 46, 48, 46, 48, 46, 48, 47, 48, 47, 48] := by decide +kernel
example : rdataToStr [0, 8, 0, 4, 0, 2, 0, 0] 8 41 1 = ok [67, 76, 73, 69, 78, 84, 45, 83, 85, 66, 78, 69, 84, 58, 32, 58, 58, 47, 48, 47, 48] := by decide +kernel
example : rdataToStr [0, 8, 0, 7, 0, 1, 24, 0, 198, 51, 100] 11 41 1 = ok [67, 76, 73, 69, 78, 84, 45, 83, 85, 66, 78, 69, 84, 58, 32, 49, 57, 56, 46, 53, 49, 46, 49, 48, 48, 46, 48, 47, 50, 52, 47, 48] := by decide +kernel

end Wdns.Vectors
