/-
The serialized ATN of `src/fcsql/FCSParser.py` (lines 11-91), transcribed by `tools/gen_antlr.py`.
-/
import Verif.Model.Atn

set_option autoImplicit false

namespace Fcsql

/-- The integers returned by `serializedATN()` (FCSParser.py:11-91), verbatim. -/
def parserData : List Int :=
  [ 4, 1, 25, 211, 2, 0, 7, 0, 2, 1, 7, 1, 2, 2, 7, 2, 2, 3, 7, 3, 2, 4, 7, 4,
    2, 5, 7, 5, 2, 6, 7, 6, 2, 7, 7, 7, 2, 8, 7, 8, 2, 9, 7, 9, 2, 10, 7, 10,
    2, 11, 7, 11, 2, 12, 7, 12, 2, 13, 7, 13, 2, 14, 7, 14, 2, 15, 7, 15, 2, 16, 7, 16,
    2, 17, 7, 17, 2, 18, 7, 18, 2, 19, 7, 19, 2, 20, 7, 20, 2, 21, 7, 21, 2, 22, 7, 22,
    1, 0, 1, 0, 1, 0, 3, 0, 50, 8, 0, 1, 0, 1, 0, 1, 1, 1, 1, 1, 1, 1, 1, 3,
    1, 58, 8, 1, 1, 2, 1, 2, 1, 2, 3, 2, 63, 8, 2, 1, 2, 1, 2, 1, 2, 1, 2, 3,
    2, 69, 8, 2, 4, 2, 71, 8, 2, 11, 2, 12, 2, 72, 1, 3, 1, 3, 4, 3, 77, 8, 3, 11,
    3, 12, 3, 78, 1, 4, 1, 4, 1, 4, 3, 4, 84, 8, 4, 1, 4, 1, 4, 3, 4, 88, 8, 4,
    1, 5, 1, 5, 3, 5, 92, 8, 5, 1, 5, 3, 5, 95, 8, 5, 1, 6, 1, 6, 1, 6, 1, 6,
    1, 6, 1, 6, 3, 6, 103, 8, 6, 1, 6, 1, 6, 1, 6, 1, 6, 1, 6, 3, 6, 110, 8, 6,
    3, 6, 112, 8, 6, 1, 6, 3, 6, 115, 8, 6, 1, 7, 1, 7, 1, 8, 1, 8, 3, 8, 121, 8,
    8, 1, 8, 1, 8, 1, 9, 1, 9, 1, 10, 1, 10, 1, 11, 1, 11, 1, 11, 1, 11, 1, 11, 3,
    11, 134, 8, 11, 1, 12, 1, 12, 1, 12, 1, 12, 3, 12, 140, 8, 12, 1, 12, 1, 12, 1, 12, 1,
    12, 1, 12, 3, 12, 147, 8, 12, 4, 12, 149, 8, 12, 11, 12, 12, 12, 150, 1, 13, 1, 13, 1, 13,
    3, 13, 156, 8, 13, 1, 13, 1, 13, 1, 13, 1, 13, 1, 13, 3, 13, 163, 8, 13, 4, 13, 165, 8,
    13, 11, 13, 12, 13, 166, 1, 14, 1, 14, 1, 14, 1, 14, 1, 14, 1, 14, 3, 14, 175, 8, 14, 1,
    14, 1, 14, 1, 15, 1, 15, 1, 15, 1, 15, 1, 15, 1, 15, 3, 15, 185, 8, 15, 1, 16, 1, 16,
    1, 16, 1, 16, 1, 17, 1, 17, 1, 17, 3, 17, 194, 8, 17, 1, 17, 1, 17, 1, 18, 1, 18, 1,
    19, 1, 19, 1, 20, 1, 20, 1, 20, 3, 20, 205, 8, 20, 1, 21, 1, 21, 1, 22, 1, 22, 1, 22,
    0, 0, 23, 0, 2, 4, 6, 8, 10, 12, 14, 16, 18, 20, 22, 24, 26, 28, 30, 32, 34, 36, 38, 40,
    42, 44, 0, 2, 1, 0, 15, 16, 1, 0, 18, 21, 237, 0, 46, 1, 0, 0, 0, 2, 57, 1, 0, 0,
    0, 4, 62, 1, 0, 0, 0, 6, 76, 1, 0, 0, 0, 8, 80, 1, 0, 0, 0, 10, 91, 1, 0, 0,
    0, 12, 114, 1, 0, 0, 0, 14, 116, 1, 0, 0, 0, 16, 118, 1, 0, 0, 0, 18, 124, 1, 0, 0,
    0, 20, 126, 1, 0, 0, 0, 22, 133, 1, 0, 0, 0, 24, 139, 1, 0, 0, 0, 26, 155, 1, 0, 0,
    0, 28, 168, 1, 0, 0, 0, 30, 178, 1, 0, 0, 0, 32, 186, 1, 0, 0, 0, 34, 193, 1, 0, 0,
    0, 36, 197, 1, 0, 0, 0, 38, 199, 1, 0, 0, 0, 40, 201, 1, 0, 0, 0, 42, 206, 1, 0, 0,
    0, 44, 208, 1, 0, 0, 0, 46, 49, 3, 2, 1, 0, 47, 48, 5, 18, 0, 0, 48, 50, 3, 18, 9,
    0, 49, 47, 1, 0, 0, 0, 49, 50, 1, 0, 0, 0, 50, 51, 1, 0, 0, 0, 51, 52, 5, 0, 0,
    1, 52, 1, 1, 0, 0, 0, 53, 58, 3, 10, 5, 0, 54, 58, 3, 8, 4, 0, 55, 58, 3, 6, 3,
    0, 56, 58, 3, 4, 2, 0, 57, 53, 1, 0, 0, 0, 57, 54, 1, 0, 0, 0, 57, 55, 1, 0, 0,
    0, 57, 56, 1, 0, 0, 0, 58, 3, 1, 0, 0, 0, 59, 63, 3, 10, 5, 0, 60, 63, 3, 6, 3,
    0, 61, 63, 3, 8, 4, 0, 62, 59, 1, 0, 0, 0, 62, 60, 1, 0, 0, 0, 62, 61, 1, 0, 0,
    0, 63, 70, 1, 0, 0, 0, 64, 68, 5, 5, 0, 0, 65, 69, 3, 10, 5, 0, 66, 69, 3, 6, 3,
    0, 67, 69, 3, 8, 4, 0, 68, 65, 1, 0, 0, 0, 68, 66, 1, 0, 0, 0, 68, 67, 1, 0, 0,
    0, 69, 71, 1, 0, 0, 0, 70, 64, 1, 0, 0, 0, 71, 72, 1, 0, 0, 0, 72, 70, 1, 0, 0,
    0, 72, 73, 1, 0, 0, 0, 73, 5, 1, 0, 0, 0, 74, 77, 3, 10, 5, 0, 75, 77, 3, 8, 4,
    0, 76, 74, 1, 0, 0, 0, 76, 75, 1, 0, 0, 0, 77, 78, 1, 0, 0, 0, 78, 76, 1, 0, 0,
    0, 78, 79, 1, 0, 0, 0, 79, 7, 1, 0, 0, 0, 80, 83, 5, 1, 0, 0, 81, 84, 3, 4, 2,
    0, 82, 84, 3, 6, 3, 0, 83, 81, 1, 0, 0, 0, 83, 82, 1, 0, 0, 0, 84, 85, 1, 0, 0,
    0, 85, 87, 5, 2, 0, 0, 86, 88, 3, 12, 6, 0, 87, 86, 1, 0, 0, 0, 87, 88, 1, 0, 0,
    0, 88, 9, 1, 0, 0, 0, 89, 92, 3, 14, 7, 0, 90, 92, 3, 16, 8, 0, 91, 89, 1, 0, 0,
    0, 91, 90, 1, 0, 0, 0, 92, 94, 1, 0, 0, 0, 93, 95, 3, 12, 6, 0, 94, 93, 1, 0, 0,
    0, 94, 95, 1, 0, 0, 0, 95, 11, 1, 0, 0, 0, 96, 115, 5, 11, 0, 0, 97, 115, 5, 12, 0,
    0, 98, 115, 5, 13, 0, 0, 99, 111, 5, 9, 0, 0, 100, 112, 5, 22, 0, 0, 101, 103, 5, 22, 0,
    0, 102, 101, 1, 0, 0, 0, 102, 103, 1, 0, 0, 0, 103, 104, 1, 0, 0, 0, 104, 105, 5, 14, 0,
    0, 105, 112, 5, 22, 0, 0, 106, 107, 5, 22, 0, 0, 107, 109, 5, 14, 0, 0, 108, 110, 5, 22, 0,
    0, 109, 108, 1, 0, 0, 0, 109, 110, 1, 0, 0, 0, 110, 112, 1, 0, 0, 0, 111, 100, 1, 0, 0,
    0, 111, 102, 1, 0, 0, 0, 111, 106, 1, 0, 0, 0, 112, 113, 1, 0, 0, 0, 113, 115, 5, 10, 0,
    0, 114, 96, 1, 0, 0, 0, 114, 97, 1, 0, 0, 0, 114, 98, 1, 0, 0, 0, 114, 99, 1, 0, 0,
    0, 115, 13, 1, 0, 0, 0, 116, 117, 3, 40, 20, 0, 117, 15, 1, 0, 0, 0, 118, 120, 5, 3, 0,
    0, 119, 121, 3, 22, 11, 0, 120, 119, 1, 0, 0, 0, 120, 121, 1, 0, 0, 0, 121, 122, 1, 0, 0,
    0, 122, 123, 5, 4, 0, 0, 123, 17, 1, 0, 0, 0, 124, 125, 3, 20, 10, 0, 125, 19, 1, 0, 0,
    0, 126, 127, 5, 19, 0, 0, 127, 21, 1, 0, 0, 0, 128, 134, 3, 32, 16, 0, 129, 134, 3, 28, 14,
    0, 130, 134, 3, 24, 12, 0, 131, 134, 3, 26, 13, 0, 132, 134, 3, 30, 15, 0, 133, 128, 1, 0, 0,
    0, 133, 129, 1, 0, 0, 0, 133, 130, 1, 0, 0, 0, 133, 131, 1, 0, 0, 0, 133, 132, 1, 0, 0,
    0, 134, 23, 1, 0, 0, 0, 135, 140, 3, 32, 16, 0, 136, 140, 3, 28, 14, 0, 137, 140, 3, 26, 13,
    0, 138, 140, 3, 30, 15, 0, 139, 135, 1, 0, 0, 0, 139, 136, 1, 0, 0, 0, 139, 137, 1, 0, 0,
    0, 139, 138, 1, 0, 0, 0, 140, 148, 1, 0, 0, 0, 141, 146, 5, 5, 0, 0, 142, 147, 3, 32, 16,
    0, 143, 147, 3, 28, 14, 0, 144, 147, 3, 26, 13, 0, 145, 147, 3, 30, 15, 0, 146, 142, 1, 0, 0,
    0, 146, 143, 1, 0, 0, 0, 146, 144, 1, 0, 0, 0, 146, 145, 1, 0, 0, 0, 147, 149, 1, 0, 0,
    0, 148, 141, 1, 0, 0, 0, 149, 150, 1, 0, 0, 0, 150, 148, 1, 0, 0, 0, 150, 151, 1, 0, 0,
    0, 151, 25, 1, 0, 0, 0, 152, 156, 3, 32, 16, 0, 153, 156, 3, 28, 14, 0, 154, 156, 3, 30, 15,
    0, 155, 152, 1, 0, 0, 0, 155, 153, 1, 0, 0, 0, 155, 154, 1, 0, 0, 0, 156, 164, 1, 0, 0,
    0, 157, 162, 5, 6, 0, 0, 158, 163, 3, 32, 16, 0, 159, 163, 3, 28, 14, 0, 160, 163, 3, 24, 12,
    0, 161, 163, 3, 30, 15, 0, 162, 158, 1, 0, 0, 0, 162, 159, 1, 0, 0, 0, 162, 160, 1, 0, 0,
    0, 162, 161, 1, 0, 0, 0, 163, 165, 1, 0, 0, 0, 164, 157, 1, 0, 0, 0, 165, 166, 1, 0, 0,
    0, 166, 164, 1, 0, 0, 0, 166, 167, 1, 0, 0, 0, 167, 27, 1, 0, 0, 0, 168, 174, 5, 1, 0,
    0, 169, 175, 3, 32, 16, 0, 170, 175, 3, 28, 14, 0, 171, 175, 3, 24, 12, 0, 172, 175, 3, 26, 13,
    0, 173, 175, 3, 30, 15, 0, 174, 169, 1, 0, 0, 0, 174, 170, 1, 0, 0, 0, 174, 171, 1, 0, 0,
    0, 174, 172, 1, 0, 0, 0, 174, 173, 1, 0, 0, 0, 175, 176, 1, 0, 0, 0, 176, 177, 5, 2, 0,
    0, 177, 29, 1, 0, 0, 0, 178, 184, 5, 7, 0, 0, 179, 185, 3, 32, 16, 0, 180, 185, 3, 28, 14,
    0, 181, 185, 3, 30, 15, 0, 182, 185, 3, 24, 12, 0, 183, 185, 3, 26, 13, 0, 184, 179, 1, 0, 0,
    0, 184, 180, 1, 0, 0, 0, 184, 181, 1, 0, 0, 0, 184, 182, 1, 0, 0, 0, 184, 183, 1, 0, 0,
    0, 185, 31, 1, 0, 0, 0, 186, 187, 3, 34, 17, 0, 187, 188, 7, 0, 0, 0, 188, 189, 3, 40, 20,
    0, 189, 33, 1, 0, 0, 0, 190, 191, 3, 36, 18, 0, 191, 192, 5, 17, 0, 0, 192, 194, 1, 0, 0,
    0, 193, 190, 1, 0, 0, 0, 193, 194, 1, 0, 0, 0, 194, 195, 1, 0, 0, 0, 195, 196, 3, 38, 19,
    0, 196, 35, 1, 0, 0, 0, 197, 198, 7, 1, 0, 0, 198, 37, 1, 0, 0, 0, 199, 200, 7, 1, 0,
    0, 200, 39, 1, 0, 0, 0, 201, 204, 3, 42, 21, 0, 202, 203, 5, 8, 0, 0, 203, 205, 3, 44, 22,
    0, 204, 202, 1, 0, 0, 0, 204, 205, 1, 0, 0, 0, 205, 41, 1, 0, 0, 0, 206, 207, 5, 23, 0,
    0, 207, 43, 1, 0, 0, 0, 208, 209, 5, 20, 0, 0, 209, 45, 1, 0, 0, 0, 27, 49, 57, 62, 68,
    72, 76, 78, 83, 87, 91, 94, 102, 109, 111, 114, 120, 133, 139, 146, 150, 155, 162, 166, 174, 184, 193, 204 ]

/-- The network those integers describe (FCSParser.py:11-91); proved to be `deserialize parserData` in
`Proofs/Atn.lean`. -/
def parserAtn : Atn where
  grammarType := 1
  maxToken := 25
  states := [
    ⟨2, 0, [.eps 46]⟩, ⟨7, 0, []⟩, ⟨2, 1, [.eps 57]⟩,
    ⟨7, 1, []⟩, ⟨2, 2, [.eps 62]⟩, ⟨7, 2, []⟩,
    ⟨2, 3, [.eps 76]⟩, ⟨7, 3, []⟩, ⟨2, 4, [.eps 80]⟩,
    ⟨7, 4, []⟩, ⟨2, 5, [.eps 91]⟩, ⟨7, 5, []⟩,
    ⟨2, 6, [.eps 114]⟩, ⟨7, 6, []⟩, ⟨2, 7, [.eps 116]⟩,
    ⟨7, 7, []⟩, ⟨2, 8, [.eps 118]⟩, ⟨7, 8, []⟩,
    ⟨2, 9, [.eps 124]⟩, ⟨7, 9, []⟩, ⟨2, 10, [.eps 126]⟩,
    ⟨7, 10, []⟩, ⟨2, 11, [.eps 133]⟩, ⟨7, 11, []⟩,
    ⟨2, 12, [.eps 139]⟩, ⟨7, 12, []⟩, ⟨2, 13, [.eps 155]⟩,
    ⟨7, 13, []⟩, ⟨2, 14, [.eps 168]⟩, ⟨7, 14, []⟩,
    ⟨2, 15, [.eps 178]⟩, ⟨7, 15, []⟩, ⟨2, 16, [.eps 186]⟩,
    ⟨7, 16, []⟩, ⟨2, 17, [.eps 193]⟩, ⟨7, 17, []⟩,
    ⟨2, 18, [.eps 197]⟩, ⟨7, 18, []⟩, ⟨2, 19, [.eps 199]⟩,
    ⟨7, 19, []⟩, ⟨2, 20, [.eps 201]⟩, ⟨7, 20, []⟩,
    ⟨2, 21, [.eps 206]⟩, ⟨7, 21, []⟩, ⟨2, 22, [.eps 208]⟩,
    ⟨7, 22, []⟩, ⟨1, 0, [.rule 2 1 49]⟩, ⟨1, 0, [.atom 18 48]⟩,
    ⟨1, 0, [.rule 18 9 50]⟩, ⟨3, 0, [.eps 47, .eps 50]⟩, ⟨8, 0, [.eps 51]⟩,
    ⟨1, 0, [.atom (-1) 52]⟩, ⟨1, 0, [.eps 1]⟩, ⟨1, 1, [.rule 10 5 58]⟩,
    ⟨1, 1, [.rule 8 4 58]⟩, ⟨1, 1, [.rule 6 3 58]⟩, ⟨1, 1, [.rule 4 2 58]⟩,
    ⟨3, 1, [.eps 53, .eps 54, .eps 55, .eps 56]⟩, ⟨8, 1, [.eps 3]⟩, ⟨1, 2, [.rule 10 5 63]⟩,
    ⟨1, 2, [.rule 6 3 63]⟩, ⟨1, 2, [.rule 8 4 63]⟩, ⟨3, 2, [.eps 59, .eps 60, .eps 61]⟩,
    ⟨8, 2, [.eps 70]⟩, ⟨1, 2, [.atom 5 68]⟩, ⟨1, 2, [.rule 10 5 69]⟩,
    ⟨1, 2, [.rule 6 3 69]⟩, ⟨1, 2, [.rule 8 4 69]⟩, ⟨3, 2, [.eps 65, .eps 66, .eps 67]⟩,
    ⟨8, 2, [.eps 71]⟩, ⟨4, 2, [.eps 64]⟩, ⟨8, 2, [.eps 72]⟩,
    ⟨11, 2, [.eps 70, .eps 73]⟩, ⟨12, 2, [.eps 5]⟩, ⟨1, 3, [.rule 10 5 77]⟩,
    ⟨1, 3, [.rule 8 4 77]⟩, ⟨4, 3, [.eps 74, .eps 75]⟩, ⟨8, 3, [.eps 78]⟩,
    ⟨11, 3, [.eps 76, .eps 79]⟩, ⟨12, 3, [.eps 7]⟩, ⟨1, 4, [.atom 1 83]⟩,
    ⟨1, 4, [.rule 4 2 84]⟩, ⟨1, 4, [.rule 6 3 84]⟩, ⟨3, 4, [.eps 81, .eps 82]⟩,
    ⟨8, 4, [.eps 85]⟩, ⟨1, 4, [.atom 2 87]⟩, ⟨1, 4, [.rule 12 6 88]⟩,
    ⟨3, 4, [.eps 86, .eps 88]⟩, ⟨8, 4, [.eps 9]⟩, ⟨1, 5, [.rule 14 7 92]⟩,
    ⟨1, 5, [.rule 16 8 92]⟩, ⟨3, 5, [.eps 89, .eps 90]⟩, ⟨8, 5, [.eps 94]⟩,
    ⟨1, 5, [.rule 12 6 95]⟩, ⟨3, 5, [.eps 93, .eps 95]⟩, ⟨8, 5, [.eps 11]⟩,
    ⟨1, 6, [.atom 11 115]⟩, ⟨1, 6, [.atom 12 115]⟩, ⟨1, 6, [.atom 13 115]⟩,
    ⟨1, 6, [.atom 9 111]⟩, ⟨1, 6, [.atom 22 112]⟩, ⟨1, 6, [.atom 22 103]⟩,
    ⟨3, 6, [.eps 101, .eps 103]⟩, ⟨8, 6, [.eps 104]⟩, ⟨1, 6, [.atom 14 105]⟩,
    ⟨1, 6, [.atom 22 112]⟩, ⟨1, 6, [.atom 22 107]⟩, ⟨1, 6, [.atom 14 109]⟩,
    ⟨1, 6, [.atom 22 110]⟩, ⟨3, 6, [.eps 108, .eps 110]⟩, ⟨8, 6, [.eps 112]⟩,
    ⟨3, 6, [.eps 100, .eps 102, .eps 106]⟩, ⟨8, 6, [.eps 113]⟩, ⟨1, 6, [.atom 10 115]⟩,
    ⟨3, 6, [.eps 96, .eps 97, .eps 98, .eps 99]⟩, ⟨8, 6, [.eps 13]⟩, ⟨1, 7, [.rule 40 20 117]⟩,
    ⟨1, 7, [.eps 15]⟩, ⟨1, 8, [.atom 3 120]⟩, ⟨1, 8, [.rule 22 11 121]⟩,
    ⟨3, 8, [.eps 119, .eps 121]⟩, ⟨8, 8, [.eps 122]⟩, ⟨1, 8, [.atom 4 123]⟩,
    ⟨1, 8, [.eps 17]⟩, ⟨1, 9, [.rule 20 10 125]⟩, ⟨1, 9, [.eps 19]⟩,
    ⟨1, 10, [.atom 19 127]⟩, ⟨1, 10, [.eps 21]⟩, ⟨1, 11, [.rule 32 16 134]⟩,
    ⟨1, 11, [.rule 28 14 134]⟩, ⟨1, 11, [.rule 24 12 134]⟩, ⟨1, 11, [.rule 26 13 134]⟩,
    ⟨1, 11, [.rule 30 15 134]⟩, ⟨3, 11, [.eps 128, .eps 129, .eps 130, .eps 131, .eps 132]⟩, ⟨8, 11, [.eps 23]⟩,
    ⟨1, 12, [.rule 32 16 140]⟩, ⟨1, 12, [.rule 28 14 140]⟩, ⟨1, 12, [.rule 26 13 140]⟩,
    ⟨1, 12, [.rule 30 15 140]⟩, ⟨3, 12, [.eps 135, .eps 136, .eps 137, .eps 138]⟩, ⟨8, 12, [.eps 148]⟩,
    ⟨1, 12, [.atom 5 146]⟩, ⟨1, 12, [.rule 32 16 147]⟩, ⟨1, 12, [.rule 28 14 147]⟩,
    ⟨1, 12, [.rule 26 13 147]⟩, ⟨1, 12, [.rule 30 15 147]⟩, ⟨3, 12, [.eps 142, .eps 143, .eps 144, .eps 145]⟩,
    ⟨8, 12, [.eps 149]⟩, ⟨4, 12, [.eps 141]⟩, ⟨8, 12, [.eps 150]⟩,
    ⟨11, 12, [.eps 148, .eps 151]⟩, ⟨12, 12, [.eps 25]⟩, ⟨1, 13, [.rule 32 16 156]⟩,
    ⟨1, 13, [.rule 28 14 156]⟩, ⟨1, 13, [.rule 30 15 156]⟩, ⟨3, 13, [.eps 152, .eps 153, .eps 154]⟩,
    ⟨8, 13, [.eps 164]⟩, ⟨1, 13, [.atom 6 162]⟩, ⟨1, 13, [.rule 32 16 163]⟩,
    ⟨1, 13, [.rule 28 14 163]⟩, ⟨1, 13, [.rule 24 12 163]⟩, ⟨1, 13, [.rule 30 15 163]⟩,
    ⟨3, 13, [.eps 158, .eps 159, .eps 160, .eps 161]⟩, ⟨8, 13, [.eps 165]⟩, ⟨4, 13, [.eps 157]⟩,
    ⟨8, 13, [.eps 166]⟩, ⟨11, 13, [.eps 164, .eps 167]⟩, ⟨12, 13, [.eps 27]⟩,
    ⟨1, 14, [.atom 1 174]⟩, ⟨1, 14, [.rule 32 16 175]⟩, ⟨1, 14, [.rule 28 14 175]⟩,
    ⟨1, 14, [.rule 24 12 175]⟩, ⟨1, 14, [.rule 26 13 175]⟩, ⟨1, 14, [.rule 30 15 175]⟩,
    ⟨3, 14, [.eps 169, .eps 170, .eps 171, .eps 172, .eps 173]⟩, ⟨8, 14, [.eps 176]⟩, ⟨1, 14, [.atom 2 177]⟩,
    ⟨1, 14, [.eps 29]⟩, ⟨1, 15, [.atom 7 184]⟩, ⟨1, 15, [.rule 32 16 185]⟩,
    ⟨1, 15, [.rule 28 14 185]⟩, ⟨1, 15, [.rule 30 15 185]⟩, ⟨1, 15, [.rule 24 12 185]⟩,
    ⟨1, 15, [.rule 26 13 185]⟩, ⟨3, 15, [.eps 179, .eps 180, .eps 181, .eps 182, .eps 183]⟩, ⟨8, 15, [.eps 31]⟩,
    ⟨1, 16, [.rule 34 17 187]⟩, ⟨1, 16, [.set [(15, 16)] 188]⟩, ⟨1, 16, [.rule 40 20 189]⟩,
    ⟨1, 16, [.eps 33]⟩, ⟨1, 17, [.rule 36 18 191]⟩, ⟨1, 17, [.atom 17 192]⟩,
    ⟨1, 17, [.eps 194]⟩, ⟨3, 17, [.eps 190, .eps 194]⟩, ⟨8, 17, [.eps 195]⟩,
    ⟨1, 17, [.rule 38 19 196]⟩, ⟨1, 17, [.eps 35]⟩, ⟨1, 18, [.set [(18, 21)] 198]⟩,
    ⟨1, 18, [.eps 37]⟩, ⟨1, 19, [.set [(18, 21)] 200]⟩, ⟨1, 19, [.eps 39]⟩,
    ⟨1, 20, [.rule 42 21 204]⟩, ⟨1, 20, [.atom 8 203]⟩, ⟨1, 20, [.rule 44 22 205]⟩,
    ⟨3, 20, [.eps 202, .eps 205]⟩, ⟨8, 20, [.eps 41]⟩, ⟨1, 21, [.atom 23 207]⟩,
    ⟨1, 21, [.eps 43]⟩, ⟨1, 22, [.atom 20 209]⟩, ⟨1, 22, [.eps 45]⟩,
    ⟨1, 22, []⟩ ]
  rules := [(0, 0), (2, 0), (4, 0), (6, 0), (8, 0), (10, 0), (12, 0), (14, 0), (16, 0), (18, 0), (20, 0), (22, 0), (24, 0), (26, 0), (28, 0), (30, 0), (32, 0), (34, 0), (36, 0), (38, 0), (40, 0), (42, 0), (44, 0)]
  modes := []
  decisions := [49, 57, 62, 68, 72, 76, 78, 83, 87, 91, 94, 102, 109, 111, 114, 120, 133, 139, 146, 150, 155, 162, 166, 174, 184, 193, 204]
  actions := []

end Fcsql
