/-
The serialized ATN of `src/fcsql/FCSLexer.py` (lines 11-103), transcribed by `tools/gen_antlr.py`.
-/
import Verif.Model.Atn

set_option autoImplicit false

namespace Fcsql

/-- The integers returned by `serializedATN()` (FCSLexer.py:11-103), verbatim. -/
def lexerData : List Int :=
  [ 4, 0, 25, 238, 6, -1, 2, 0, 7, 0, 2, 1, 7, 1, 2, 2, 7, 2, 2, 3, 7, 3, 2, 4,
    7, 4, 2, 5, 7, 5, 2, 6, 7, 6, 2, 7, 7, 7, 2, 8, 7, 8, 2, 9, 7, 9, 2, 10,
    7, 10, 2, 11, 7, 11, 2, 12, 7, 12, 2, 13, 7, 13, 2, 14, 7, 14, 2, 15, 7, 15, 2, 16,
    7, 16, 2, 17, 7, 17, 2, 18, 7, 18, 2, 19, 7, 19, 2, 20, 7, 20, 2, 21, 7, 21, 2, 22,
    7, 22, 2, 23, 7, 23, 2, 24, 7, 24, 2, 25, 7, 25, 2, 26, 7, 26, 2, 27, 7, 27, 2, 28,
    7, 28, 2, 29, 7, 29, 2, 30, 7, 30, 2, 31, 7, 31, 1, 0, 1, 0, 1, 1, 1, 1, 1, 2,
    1, 2, 1, 3, 1, 3, 1, 4, 1, 4, 1, 5, 1, 5, 1, 6, 1, 6, 1, 7, 1, 7, 1, 8,
    1, 8, 1, 9, 1, 9, 1, 10, 1, 10, 1, 11, 1, 11, 1, 12, 1, 12, 1, 13, 1, 13, 1, 14,
    1, 14, 1, 15, 1, 15, 1, 15, 1, 16, 1, 16, 1, 17, 1, 17, 1, 17, 1, 17, 1, 17, 1, 17,
    1, 17, 1, 18, 1, 18, 1, 18, 1, 18, 1, 18, 1, 18, 1, 18, 1, 18, 1, 18, 1, 18, 1, 18,
    1, 18, 1, 18, 1, 18, 1, 18, 1, 18, 1, 18, 1, 18, 1, 18, 1, 18, 1, 18, 1, 18, 1, 18,
    1, 18, 1, 18, 1, 18, 1, 18, 1, 18, 1, 18, 1, 18, 1, 18, 1, 18, 1, 18, 1, 18, 1, 18,
    1, 18, 1, 18, 1, 18, 1, 18, 1, 18, 1, 18, 1, 18, 1, 18, 1, 18, 1, 18, 3, 18, 153, 8,
    18, 1, 19, 4, 19, 156, 8, 19, 11, 19, 12, 19, 157, 1, 20, 1, 20, 1, 21, 1, 21, 1, 22, 1,
    22, 1, 23, 1, 23, 5, 23, 168, 8, 23, 10, 23, 12, 23, 171, 9, 23, 1, 23, 3, 23, 174, 8, 23,
    1, 24, 4, 24, 177, 8, 24, 11, 24, 12, 24, 178, 1, 25, 1, 25, 1, 26, 1, 26, 1, 26, 5, 26,
    186, 8, 26, 10, 26, 12, 26, 189, 9, 26, 1, 26, 1, 26, 1, 26, 1, 26, 5, 26, 195, 8, 26, 10,
    26, 12, 26, 198, 9, 26, 1, 26, 3, 26, 201, 8, 26, 1, 27, 1, 27, 3, 27, 205, 8, 27, 1, 28,
    1, 28, 1, 29, 1, 29, 1, 29, 1, 29, 1, 29, 1, 29, 1, 29, 1, 29, 1, 29, 1, 29, 1, 29,
    1, 29, 1, 29, 1, 29, 1, 29, 1, 29, 1, 29, 1, 29, 1, 29, 1, 29, 1, 29, 1, 29, 3, 29,
    231, 8, 29, 1, 30, 1, 30, 1, 31, 1, 31, 1, 31, 1, 31, 0, 0, 32, 1, 1, 3, 2, 5, 3,
    7, 4, 9, 5, 11, 6, 13, 7, 15, 8, 17, 9, 19, 10, 21, 11, 23, 12, 25, 13, 27, 14, 29, 15,
    31, 16, 33, 17, 35, 18, 37, 19, 39, 20, 41, 0, 43, 0, 45, 0, 47, 21, 49, 22, 51, 23, 53, 24,
    55, 0, 57, 0, 59, 0, 61, 0, 63, 25, 1, 0, 10, 5, 0, 67, 67, 73, 73, 99, 100, 105, 105, 108,
    108, 2, 0, 65, 90, 97, 122, 3, 0, 48, 57, 65, 90, 97, 122, 4, 0, 45, 45, 48, 57, 65, 90, 97,
    122, 1, 0, 48, 57, 2, 0, 39, 39, 92, 92, 2, 0, 34, 34, 92, 92, 10, 0, 9, 13, 32, 32, 133,
    133, 160, 160, 5760, 5760, 8192, 8202, 8232, 8233, 8239, 8239, 8287, 8287, 12288, 12288, 9, 0, 34, 34, 36, 36, 39, 43, 46,
    46, 63, 63, 91, 94, 110, 110, 116, 116, 123, 125, 3, 0, 48, 57, 65, 70, 97, 102, 252, 0, 1, 1, 0,
    0, 0, 0, 3, 1, 0, 0, 0, 0, 5, 1, 0, 0, 0, 0, 7, 1, 0, 0, 0, 0, 9, 1, 0,
    0, 0, 0, 11, 1, 0, 0, 0, 0, 13, 1, 0, 0, 0, 0, 15, 1, 0, 0, 0, 0, 17, 1, 0,
    0, 0, 0, 19, 1, 0, 0, 0, 0, 21, 1, 0, 0, 0, 0, 23, 1, 0, 0, 0, 0, 25, 1, 0,
    0, 0, 0, 27, 1, 0, 0, 0, 0, 29, 1, 0, 0, 0, 0, 31, 1, 0, 0, 0, 0, 33, 1, 0,
    0, 0, 0, 35, 1, 0, 0, 0, 0, 37, 1, 0, 0, 0, 0, 39, 1, 0, 0, 0, 0, 47, 1, 0,
    0, 0, 0, 49, 1, 0, 0, 0, 0, 51, 1, 0, 0, 0, 0, 53, 1, 0, 0, 0, 0, 63, 1, 0,
    0, 0, 1, 65, 1, 0, 0, 0, 3, 67, 1, 0, 0, 0, 5, 69, 1, 0, 0, 0, 7, 71, 1, 0,
    0, 0, 9, 73, 1, 0, 0, 0, 11, 75, 1, 0, 0, 0, 13, 77, 1, 0, 0, 0, 15, 79, 1, 0,
    0, 0, 17, 81, 1, 0, 0, 0, 19, 83, 1, 0, 0, 0, 21, 85, 1, 0, 0, 0, 23, 87, 1, 0,
    0, 0, 25, 89, 1, 0, 0, 0, 27, 91, 1, 0, 0, 0, 29, 93, 1, 0, 0, 0, 31, 95, 1, 0,
    0, 0, 33, 98, 1, 0, 0, 0, 35, 100, 1, 0, 0, 0, 37, 152, 1, 0, 0, 0, 39, 155, 1, 0,
    0, 0, 41, 159, 1, 0, 0, 0, 43, 161, 1, 0, 0, 0, 45, 163, 1, 0, 0, 0, 47, 165, 1, 0,
    0, 0, 49, 176, 1, 0, 0, 0, 51, 180, 1, 0, 0, 0, 53, 200, 1, 0, 0, 0, 55, 204, 1, 0,
    0, 0, 57, 206, 1, 0, 0, 0, 59, 208, 1, 0, 0, 0, 61, 232, 1, 0, 0, 0, 63, 234, 1, 0,
    0, 0, 65, 66, 5, 40, 0, 0, 66, 2, 1, 0, 0, 0, 67, 68, 5, 41, 0, 0, 68, 4, 1, 0,
    0, 0, 69, 70, 5, 91, 0, 0, 70, 6, 1, 0, 0, 0, 71, 72, 5, 93, 0, 0, 72, 8, 1, 0,
    0, 0, 73, 74, 5, 124, 0, 0, 74, 10, 1, 0, 0, 0, 75, 76, 5, 38, 0, 0, 76, 12, 1, 0,
    0, 0, 77, 78, 5, 33, 0, 0, 78, 14, 1, 0, 0, 0, 79, 80, 5, 47, 0, 0, 80, 16, 1, 0,
    0, 0, 81, 82, 5, 123, 0, 0, 82, 18, 1, 0, 0, 0, 83, 84, 5, 125, 0, 0, 84, 20, 1, 0,
    0, 0, 85, 86, 5, 43, 0, 0, 86, 22, 1, 0, 0, 0, 87, 88, 5, 42, 0, 0, 88, 24, 1, 0,
    0, 0, 89, 90, 5, 63, 0, 0, 90, 26, 1, 0, 0, 0, 91, 92, 5, 44, 0, 0, 92, 28, 1, 0,
    0, 0, 93, 94, 5, 61, 0, 0, 94, 30, 1, 0, 0, 0, 95, 96, 5, 33, 0, 0, 96, 97, 5, 61,
    0, 0, 97, 32, 1, 0, 0, 0, 98, 99, 5, 58, 0, 0, 99, 34, 1, 0, 0, 0, 100, 101, 5, 119,
    0, 0, 101, 102, 5, 105, 0, 0, 102, 103, 5, 116, 0, 0, 103, 104, 5, 104, 0, 0, 104, 105, 5, 105,
    0, 0, 105, 106, 5, 110, 0, 0, 106, 36, 1, 0, 0, 0, 107, 108, 5, 115, 0, 0, 108, 109, 5, 101,
    0, 0, 109, 110, 5, 110, 0, 0, 110, 111, 5, 116, 0, 0, 111, 112, 5, 101, 0, 0, 112, 113, 5, 110,
    0, 0, 113, 114, 5, 99, 0, 0, 114, 153, 5, 101, 0, 0, 115, 153, 5, 115, 0, 0, 116, 117, 5, 117,
    0, 0, 117, 118, 5, 116, 0, 0, 118, 119, 5, 116, 0, 0, 119, 120, 5, 101, 0, 0, 120, 121, 5, 114,
    0, 0, 121, 122, 5, 97, 0, 0, 122, 123, 5, 110, 0, 0, 123, 124, 5, 99, 0, 0, 124, 153, 5, 101,
    0, 0, 125, 153, 5, 117, 0, 0, 126, 127, 5, 112, 0, 0, 127, 128, 5, 97, 0, 0, 128, 129, 5, 114,
    0, 0, 129, 130, 5, 97, 0, 0, 130, 131, 5, 103, 0, 0, 131, 132, 5, 114, 0, 0, 132, 133, 5, 97,
    0, 0, 133, 134, 5, 112, 0, 0, 134, 153, 5, 104, 0, 0, 135, 153, 5, 112, 0, 0, 136, 137, 5, 116,
    0, 0, 137, 138, 5, 117, 0, 0, 138, 139, 5, 114, 0, 0, 139, 153, 5, 110, 0, 0, 140, 153, 5, 116,
    0, 0, 141, 142, 5, 116, 0, 0, 142, 143, 5, 101, 0, 0, 143, 144, 5, 120, 0, 0, 144, 153, 5, 116,
    0, 0, 145, 146, 5, 115, 0, 0, 146, 147, 5, 101, 0, 0, 147, 148, 5, 115, 0, 0, 148, 149, 5, 115,
    0, 0, 149, 150, 5, 105, 0, 0, 150, 151, 5, 111, 0, 0, 151, 153, 5, 110, 0, 0, 152, 107, 1, 0,
    0, 0, 152, 115, 1, 0, 0, 0, 152, 116, 1, 0, 0, 0, 152, 125, 1, 0, 0, 0, 152, 126, 1, 0,
    0, 0, 152, 135, 1, 0, 0, 0, 152, 136, 1, 0, 0, 0, 152, 140, 1, 0, 0, 0, 152, 141, 1, 0,
    0, 0, 152, 145, 1, 0, 0, 0, 153, 38, 1, 0, 0, 0, 154, 156, 7, 0, 0, 0, 155, 154, 1, 0,
    0, 0, 156, 157, 1, 0, 0, 0, 157, 155, 1, 0, 0, 0, 157, 158, 1, 0, 0, 0, 158, 40, 1, 0,
    0, 0, 159, 160, 7, 1, 0, 0, 160, 42, 1, 0, 0, 0, 161, 162, 7, 2, 0, 0, 162, 44, 1, 0,
    0, 0, 163, 164, 7, 3, 0, 0, 164, 46, 1, 0, 0, 0, 165, 173, 3, 41, 20, 0, 166, 168, 3, 45,
    22, 0, 167, 166, 1, 0, 0, 0, 168, 171, 1, 0, 0, 0, 169, 167, 1, 0, 0, 0, 169, 170, 1, 0,
    0, 0, 170, 172, 1, 0, 0, 0, 171, 169, 1, 0, 0, 0, 172, 174, 3, 43, 21, 0, 173, 169, 1, 0,
    0, 0, 173, 174, 1, 0, 0, 0, 174, 48, 1, 0, 0, 0, 175, 177, 7, 4, 0, 0, 176, 175, 1, 0,
    0, 0, 177, 178, 1, 0, 0, 0, 178, 176, 1, 0, 0, 0, 178, 179, 1, 0, 0, 0, 179, 50, 1, 0,
    0, 0, 180, 181, 3, 53, 26, 0, 181, 52, 1, 0, 0, 0, 182, 187, 5, 39, 0, 0, 183, 186, 3, 59,
    29, 0, 184, 186, 8, 5, 0, 0, 185, 183, 1, 0, 0, 0, 185, 184, 1, 0, 0, 0, 186, 189, 1, 0,
    0, 0, 187, 185, 1, 0, 0, 0, 187, 188, 1, 0, 0, 0, 188, 190, 1, 0, 0, 0, 189, 187, 1, 0,
    0, 0, 190, 201, 5, 39, 0, 0, 191, 196, 5, 34, 0, 0, 192, 195, 3, 59, 29, 0, 193, 195, 8, 6,
    0, 0, 194, 192, 1, 0, 0, 0, 194, 193, 1, 0, 0, 0, 195, 198, 1, 0, 0, 0, 196, 194, 1, 0,
    0, 0, 196, 197, 1, 0, 0, 0, 197, 199, 1, 0, 0, 0, 198, 196, 1, 0, 0, 0, 199, 201, 5, 34,
    0, 0, 200, 182, 1, 0, 0, 0, 200, 191, 1, 0, 0, 0, 201, 54, 1, 0, 0, 0, 202, 205, 3, 59,
    29, 0, 203, 205, 8, 7, 0, 0, 204, 202, 1, 0, 0, 0, 204, 203, 1, 0, 0, 0, 205, 56, 1, 0,
    0, 0, 206, 207, 7, 7, 0, 0, 207, 58, 1, 0, 0, 0, 208, 230, 5, 92, 0, 0, 209, 231, 7, 8,
    0, 0, 210, 211, 5, 120, 0, 0, 211, 212, 3, 61, 30, 0, 212, 213, 3, 61, 30, 0, 213, 231, 1, 0,
    0, 0, 214, 215, 5, 117, 0, 0, 215, 216, 3, 61, 30, 0, 216, 217, 3, 61, 30, 0, 217, 218, 3, 61,
    30, 0, 218, 219, 3, 61, 30, 0, 219, 231, 1, 0, 0, 0, 220, 221, 5, 85, 0, 0, 221, 222, 3, 61,
    30, 0, 222, 223, 3, 61, 30, 0, 223, 224, 3, 61, 30, 0, 224, 225, 3, 61, 30, 0, 225, 226, 3, 61,
    30, 0, 226, 227, 3, 61, 30, 0, 227, 228, 3, 61, 30, 0, 228, 229, 3, 61, 30, 0, 229, 231, 1, 0,
    0, 0, 230, 209, 1, 0, 0, 0, 230, 210, 1, 0, 0, 0, 230, 214, 1, 0, 0, 0, 230, 220, 1, 0,
    0, 0, 231, 60, 1, 0, 0, 0, 232, 233, 7, 9, 0, 0, 233, 62, 1, 0, 0, 0, 234, 235, 3, 57,
    28, 0, 235, 236, 1, 0, 0, 0, 236, 237, 6, 31, 0, 0, 237, 64, 1, 0, 0, 0, 13, 0, 152, 157,
    169, 173, 178, 185, 187, 194, 196, 200, 204, 230, 1, 6, 0, 0 ]

/-- The network those integers describe (FCSLexer.py:11-103); proved to be `deserialize lexerData` in
`Proofs/Atn.lean`. -/
def lexerAtn : Atn where
  grammarType := 0
  maxToken := 25
  states := [
    ⟨6, (-1), [.eps 1, .eps 3, .eps 5, .eps 7, .eps 9, .eps 11, .eps 13, .eps 15, .eps 17, .eps 19, .eps 21, .eps 23, .eps 25, .eps 27, .eps 29, .eps 31, .eps 33, .eps 35, .eps 37, .eps 39, .eps 47, .eps 49, .eps 51, .eps 53, .eps 63]⟩, ⟨2, 0, [.eps 65]⟩, ⟨7, 0, []⟩,
    ⟨2, 1, [.eps 67]⟩, ⟨7, 1, []⟩, ⟨2, 2, [.eps 69]⟩,
    ⟨7, 2, []⟩, ⟨2, 3, [.eps 71]⟩, ⟨7, 3, []⟩,
    ⟨2, 4, [.eps 73]⟩, ⟨7, 4, []⟩, ⟨2, 5, [.eps 75]⟩,
    ⟨7, 5, []⟩, ⟨2, 6, [.eps 77]⟩, ⟨7, 6, []⟩,
    ⟨2, 7, [.eps 79]⟩, ⟨7, 7, []⟩, ⟨2, 8, [.eps 81]⟩,
    ⟨7, 8, []⟩, ⟨2, 9, [.eps 83]⟩, ⟨7, 9, []⟩,
    ⟨2, 10, [.eps 85]⟩, ⟨7, 10, []⟩, ⟨2, 11, [.eps 87]⟩,
    ⟨7, 11, []⟩, ⟨2, 12, [.eps 89]⟩, ⟨7, 12, []⟩,
    ⟨2, 13, [.eps 91]⟩, ⟨7, 13, []⟩, ⟨2, 14, [.eps 93]⟩,
    ⟨7, 14, []⟩, ⟨2, 15, [.eps 95]⟩, ⟨7, 15, []⟩,
    ⟨2, 16, [.eps 98]⟩, ⟨7, 16, []⟩, ⟨2, 17, [.eps 100]⟩,
    ⟨7, 17, []⟩, ⟨2, 18, [.eps 152]⟩, ⟨7, 18, []⟩,
    ⟨2, 19, [.eps 155]⟩, ⟨7, 19, []⟩, ⟨2, 20, [.eps 159]⟩,
    ⟨7, 20, []⟩, ⟨2, 21, [.eps 161]⟩, ⟨7, 21, []⟩,
    ⟨2, 22, [.eps 163]⟩, ⟨7, 22, []⟩, ⟨2, 23, [.eps 165]⟩,
    ⟨7, 23, []⟩, ⟨2, 24, [.eps 176]⟩, ⟨7, 24, []⟩,
    ⟨2, 25, [.eps 180]⟩, ⟨7, 25, []⟩, ⟨2, 26, [.eps 200]⟩,
    ⟨7, 26, []⟩, ⟨2, 27, [.eps 204]⟩, ⟨7, 27, []⟩,
    ⟨2, 28, [.eps 206]⟩, ⟨7, 28, []⟩, ⟨2, 29, [.eps 208]⟩,
    ⟨7, 29, []⟩, ⟨2, 30, [.eps 232]⟩, ⟨7, 30, []⟩,
    ⟨2, 31, [.eps 234]⟩, ⟨7, 31, []⟩, ⟨1, 0, [.atom 40 66]⟩,
    ⟨1, 0, [.eps 2]⟩, ⟨1, 1, [.atom 41 68]⟩, ⟨1, 1, [.eps 4]⟩,
    ⟨1, 2, [.atom 91 70]⟩, ⟨1, 2, [.eps 6]⟩, ⟨1, 3, [.atom 93 72]⟩,
    ⟨1, 3, [.eps 8]⟩, ⟨1, 4, [.atom 124 74]⟩, ⟨1, 4, [.eps 10]⟩,
    ⟨1, 5, [.atom 38 76]⟩, ⟨1, 5, [.eps 12]⟩, ⟨1, 6, [.atom 33 78]⟩,
    ⟨1, 6, [.eps 14]⟩, ⟨1, 7, [.atom 47 80]⟩, ⟨1, 7, [.eps 16]⟩,
    ⟨1, 8, [.atom 123 82]⟩, ⟨1, 8, [.eps 18]⟩, ⟨1, 9, [.atom 125 84]⟩,
    ⟨1, 9, [.eps 20]⟩, ⟨1, 10, [.atom 43 86]⟩, ⟨1, 10, [.eps 22]⟩,
    ⟨1, 11, [.atom 42 88]⟩, ⟨1, 11, [.eps 24]⟩, ⟨1, 12, [.atom 63 90]⟩,
    ⟨1, 12, [.eps 26]⟩, ⟨1, 13, [.atom 44 92]⟩, ⟨1, 13, [.eps 28]⟩,
    ⟨1, 14, [.atom 61 94]⟩, ⟨1, 14, [.eps 30]⟩, ⟨1, 15, [.atom 33 96]⟩,
    ⟨1, 15, [.atom 61 97]⟩, ⟨1, 15, [.eps 32]⟩, ⟨1, 16, [.atom 58 99]⟩,
    ⟨1, 16, [.eps 34]⟩, ⟨1, 17, [.atom 119 101]⟩, ⟨1, 17, [.atom 105 102]⟩,
    ⟨1, 17, [.atom 116 103]⟩, ⟨1, 17, [.atom 104 104]⟩, ⟨1, 17, [.atom 105 105]⟩,
    ⟨1, 17, [.atom 110 106]⟩, ⟨1, 17, [.eps 36]⟩, ⟨1, 18, [.atom 115 108]⟩,
    ⟨1, 18, [.atom 101 109]⟩, ⟨1, 18, [.atom 110 110]⟩, ⟨1, 18, [.atom 116 111]⟩,
    ⟨1, 18, [.atom 101 112]⟩, ⟨1, 18, [.atom 110 113]⟩, ⟨1, 18, [.atom 99 114]⟩,
    ⟨1, 18, [.atom 101 153]⟩, ⟨1, 18, [.atom 115 153]⟩, ⟨1, 18, [.atom 117 117]⟩,
    ⟨1, 18, [.atom 116 118]⟩, ⟨1, 18, [.atom 116 119]⟩, ⟨1, 18, [.atom 101 120]⟩,
    ⟨1, 18, [.atom 114 121]⟩, ⟨1, 18, [.atom 97 122]⟩, ⟨1, 18, [.atom 110 123]⟩,
    ⟨1, 18, [.atom 99 124]⟩, ⟨1, 18, [.atom 101 153]⟩, ⟨1, 18, [.atom 117 153]⟩,
    ⟨1, 18, [.atom 112 127]⟩, ⟨1, 18, [.atom 97 128]⟩, ⟨1, 18, [.atom 114 129]⟩,
    ⟨1, 18, [.atom 97 130]⟩, ⟨1, 18, [.atom 103 131]⟩, ⟨1, 18, [.atom 114 132]⟩,
    ⟨1, 18, [.atom 97 133]⟩, ⟨1, 18, [.atom 112 134]⟩, ⟨1, 18, [.atom 104 153]⟩,
    ⟨1, 18, [.atom 112 153]⟩, ⟨1, 18, [.atom 116 137]⟩, ⟨1, 18, [.atom 117 138]⟩,
    ⟨1, 18, [.atom 114 139]⟩, ⟨1, 18, [.atom 110 153]⟩, ⟨1, 18, [.atom 116 153]⟩,
    ⟨1, 18, [.atom 116 142]⟩, ⟨1, 18, [.atom 101 143]⟩, ⟨1, 18, [.atom 120 144]⟩,
    ⟨1, 18, [.atom 116 153]⟩, ⟨1, 18, [.atom 115 146]⟩, ⟨1, 18, [.atom 101 147]⟩,
    ⟨1, 18, [.atom 115 148]⟩, ⟨1, 18, [.atom 115 149]⟩, ⟨1, 18, [.atom 105 150]⟩,
    ⟨1, 18, [.atom 111 151]⟩, ⟨1, 18, [.atom 110 153]⟩, ⟨3, 18, [.eps 107, .eps 115, .eps 116, .eps 125, .eps 126, .eps 135, .eps 136, .eps 140, .eps 141, .eps 145]⟩,
    ⟨8, 18, [.eps 38]⟩, ⟨1, 19, [.set [(67, 67), (73, 73), (99, 100), (105, 105), (108, 108)] 156]⟩, ⟨4, 19, [.eps 154]⟩,
    ⟨8, 19, [.eps 157]⟩, ⟨11, 19, [.eps 155, .eps 158]⟩, ⟨12, 19, [.eps 40]⟩,
    ⟨1, 20, [.set [(65, 90), (97, 122)] 160]⟩, ⟨1, 20, [.eps 42]⟩, ⟨1, 21, [.set [(48, 57), (65, 90), (97, 122)] 162]⟩,
    ⟨1, 21, [.eps 44]⟩, ⟨1, 22, [.set [(45, 45), (48, 57), (65, 90), (97, 122)] 164]⟩, ⟨1, 22, [.eps 46]⟩,
    ⟨1, 23, [.rule 41 20 173]⟩, ⟨1, 23, [.rule 45 22 168]⟩, ⟨5, 23, [.eps 166]⟩,
    ⟨8, 23, [.eps 171]⟩, ⟨10, 23, [.eps 167, .eps 170]⟩, ⟨12, 23, [.eps 172]⟩,
    ⟨9, 23, [.eps 169]⟩, ⟨1, 23, [.rule 43 21 174]⟩, ⟨3, 23, [.eps 169, .eps 174]⟩,
    ⟨8, 23, [.eps 48]⟩, ⟨1, 24, [.set [(48, 57)] 177]⟩, ⟨4, 24, [.eps 175]⟩,
    ⟨8, 24, [.eps 178]⟩, ⟨11, 24, [.eps 176, .eps 179]⟩, ⟨12, 24, [.eps 50]⟩,
    ⟨1, 25, [.rule 53 26 181]⟩, ⟨1, 25, [.eps 52]⟩, ⟨1, 26, [.atom 39 187]⟩,
    ⟨1, 26, [.rule 59 29 186]⟩, ⟨1, 26, [.notSet [(39, 39), (92, 92)] 186]⟩, ⟨5, 26, [.eps 183, .eps 184]⟩,
    ⟨8, 26, [.eps 189]⟩, ⟨10, 26, [.eps 185, .eps 188]⟩, ⟨12, 26, [.eps 190]⟩,
    ⟨9, 26, [.eps 187]⟩, ⟨1, 26, [.atom 39 201]⟩, ⟨1, 26, [.atom 34 196]⟩,
    ⟨1, 26, [.rule 59 29 195]⟩, ⟨1, 26, [.notSet [(34, 34), (92, 92)] 195]⟩, ⟨5, 26, [.eps 192, .eps 193]⟩,
    ⟨8, 26, [.eps 198]⟩, ⟨10, 26, [.eps 194, .eps 197]⟩, ⟨12, 26, [.eps 199]⟩,
    ⟨9, 26, [.eps 196]⟩, ⟨1, 26, [.atom 34 201]⟩, ⟨3, 26, [.eps 182, .eps 191]⟩,
    ⟨8, 26, [.eps 54]⟩, ⟨1, 27, [.rule 59 29 205]⟩, ⟨1, 27, [.notSet [(9, 13), (32, 32), (133, 133), (160, 160), (5760, 5760), (8192, 8202), (8232, 8233), (8239, 8239), (8287, 8287), (12288, 12288)] 205]⟩,
    ⟨3, 27, [.eps 202, .eps 203]⟩, ⟨8, 27, [.eps 56]⟩, ⟨1, 28, [.set [(9, 13), (32, 32), (133, 133), (160, 160), (5760, 5760), (8192, 8202), (8232, 8233), (8239, 8239), (8287, 8287), (12288, 12288)] 207]⟩,
    ⟨1, 28, [.eps 58]⟩, ⟨1, 29, [.atom 92 230]⟩, ⟨1, 29, [.set [(34, 34), (36, 36), (39, 43), (46, 46), (63, 63), (91, 94), (110, 110), (116, 116), (123, 125)] 231]⟩,
    ⟨1, 29, [.atom 120 211]⟩, ⟨1, 29, [.rule 61 30 212]⟩, ⟨1, 29, [.rule 61 30 213]⟩,
    ⟨1, 29, [.eps 231]⟩, ⟨1, 29, [.atom 117 215]⟩, ⟨1, 29, [.rule 61 30 216]⟩,
    ⟨1, 29, [.rule 61 30 217]⟩, ⟨1, 29, [.rule 61 30 218]⟩, ⟨1, 29, [.rule 61 30 219]⟩,
    ⟨1, 29, [.eps 231]⟩, ⟨1, 29, [.atom 85 221]⟩, ⟨1, 29, [.rule 61 30 222]⟩,
    ⟨1, 29, [.rule 61 30 223]⟩, ⟨1, 29, [.rule 61 30 224]⟩, ⟨1, 29, [.rule 61 30 225]⟩,
    ⟨1, 29, [.rule 61 30 226]⟩, ⟨1, 29, [.rule 61 30 227]⟩, ⟨1, 29, [.rule 61 30 228]⟩,
    ⟨1, 29, [.rule 61 30 229]⟩, ⟨1, 29, [.eps 231]⟩, ⟨3, 29, [.eps 209, .eps 210, .eps 214, .eps 220]⟩,
    ⟨8, 29, [.eps 60]⟩, ⟨1, 30, [.set [(48, 57), (65, 70), (97, 102)] 233]⟩, ⟨1, 30, [.eps 62]⟩,
    ⟨1, 31, [.rule 57 28 235]⟩, ⟨1, 31, [.eps 236]⟩, ⟨1, 31, [.action 0 237]⟩,
    ⟨1, 31, [.eps 64]⟩ ]
  rules := [(1, 1), (3, 2), (5, 3), (7, 4), (9, 5), (11, 6), (13, 7), (15, 8), (17, 9), (19, 10), (21, 11), (23, 12), (25, 13), (27, 14), (29, 15), (31, 16), (33, 17), (35, 18), (37, 19), (39, 20), (41, 0), (43, 0), (45, 0), (47, 21), (49, 22), (51, 23), (53, 24), (55, 0), (57, 0), (59, 0), (61, 0), (63, 25)]
  modes := [0]
  decisions := [0, 152, 157, 169, 173, 178, 185, 187, 194, 196, 200, 204, 230]
  actions := [(6, 0, 0)]

end Fcsql
