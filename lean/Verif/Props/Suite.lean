import Verif.Props.Serial
import Verif.Model.Binary64

/-!
# The tests of the repository, run on the model

Code/Tests/test01.cpp to test05.cpp and Example 4, with the files they read. These are no properties; they compare the model with what the authors
expect of the code (the position of an error is not checked by the tests). A buffer is the content of a file and a NUL.
-/

namespace Verif.Suite

open Verif Verif.Doc Verif.Parser Verif.Serial Verif.Spec Verif.Props

/-- Data/Test/jsonchecker/fail2.json -/
def fail2 : Bytes :=
  [91, 34, 85, 110, 99, 108, 111, 115, 101, 100, 32, 97, 114, 114, 97, 121, 34, 0]

/-- Data/Test/jsonchecker/fail3.json -/
def fail3 : Bytes :=
  [123, 117, 110, 113, 117, 111, 116, 101, 100, 95, 107, 101, 121, 58, 32, 34, 107, 101, 121, 115, 32, 109, 117, 115, 116, 32, 98, 101, 32, 113,
  117, 111, 116, 101, 100, 34, 125, 0]

/-- Data/Test/jsonchecker/fail4.json -/
def fail4 : Bytes :=
  [91, 34, 101, 120, 116, 114, 97, 32, 99, 111, 109, 109, 97, 34, 44, 93, 0]

/-- Data/Test/jsonchecker/fail5.json -/
def fail5 : Bytes :=
  [91, 34, 100, 111, 117, 98, 108, 101, 32, 101, 120, 116, 114, 97, 32, 99, 111, 109, 109, 97, 34, 44, 44, 93, 0]

/-- Data/Test/jsonchecker/fail6.json -/
def fail6 : Bytes :=
  [91, 32, 32, 32, 44, 32, 34, 60, 45, 45, 32, 109, 105, 115, 115, 105, 110, 103, 32, 118, 97, 108, 117, 101, 34, 93, 0]

/-- Data/Test/jsonchecker/fail7.json -/
def fail7 : Bytes :=
  [91, 34, 67, 111, 109, 109, 97, 32, 97, 102, 116, 101, 114, 32, 116, 104, 101, 32, 99, 108, 111, 115, 101, 34, 93, 44, 0]

/-- Data/Test/jsonchecker/fail8.json -/
def fail8 : Bytes :=
  [91, 34, 69, 120, 116, 114, 97, 32, 99, 108, 111, 115, 101, 34, 93, 93, 0]

/-- Data/Test/jsonchecker/fail9.json -/
def fail9 : Bytes :=
  [123, 34, 69, 120, 116, 114, 97, 32, 99, 111, 109, 109, 97, 34, 58, 32, 116, 114, 117, 101, 44, 125, 0]

/-- Data/Test/jsonchecker/fail10.json -/
def fail10 : Bytes :=
  [123, 34, 69, 120, 116, 114, 97, 32, 118, 97, 108, 117, 101, 32, 97, 102, 116, 101, 114, 32, 99, 108, 111, 115, 101, 34, 58, 32, 116, 114, 117,
  101, 125, 32, 34, 109, 105, 115, 112, 108, 97, 99, 101, 100, 32, 113, 117, 111, 116, 101, 100, 32, 118, 97, 108, 117, 101, 34, 0]

/-- Data/Test/jsonchecker/fail11.json -/
def fail11 : Bytes :=
  [123, 34, 73, 108, 108, 101, 103, 97, 108, 32, 101, 120, 112, 114, 101, 115, 115, 105, 111, 110, 34, 58, 32, 49, 32, 43, 32, 50, 125, 0]

/-- Data/Test/jsonchecker/fail12.json -/
def fail12 : Bytes :=
  [123, 34, 73, 108, 108, 101, 103, 97, 108, 32, 105, 110, 118, 111, 99, 97, 116, 105, 111, 110, 34, 58, 32, 97, 108, 101, 114, 116, 40, 41, 125,
  0]

/-- Data/Test/jsonchecker/fail13.json -/
def fail13 : Bytes :=
  [123, 34, 78, 117, 109, 98, 101, 114, 115, 32, 99, 97, 110, 110, 111, 116, 32, 104, 97, 118, 101, 32, 108, 101, 97, 100, 105, 110, 103, 32, 122,
  101, 114, 111, 101, 115, 34, 58, 32, 48, 49, 51, 125, 0]

/-- Data/Test/jsonchecker/fail14.json -/
def fail14 : Bytes :=
  [123, 34, 78, 117, 109, 98, 101, 114, 115, 32, 99, 97, 110, 110, 111, 116, 32, 98, 101, 32, 104, 101, 120, 34, 58, 32, 48, 120, 49, 52, 125, 0]

/-- Data/Test/jsonchecker/fail15.json -/
def fail15 : Bytes :=
  [91, 34, 73, 108, 108, 101, 103, 97, 108, 32, 98, 97, 99, 107, 115, 108, 97, 115, 104, 32, 101, 115, 99, 97, 112, 101, 58, 32, 92, 120, 49, 53,
  34, 93, 0]

/-- Data/Test/jsonchecker/fail16.json -/
def fail16 : Bytes :=
  [91, 92, 110, 97, 107, 101, 100, 93, 0]

/-- Data/Test/jsonchecker/fail17.json -/
def fail17 : Bytes :=
  [91, 34, 73, 108, 108, 101, 103, 97, 108, 32, 98, 97, 99, 107, 115, 108, 97, 115, 104, 32, 101, 115, 99, 97, 112, 101, 58, 32, 92, 48, 49, 55,
  34, 93, 0]

/-- Data/Test/jsonchecker/fail19.json -/
def fail19 : Bytes :=
  [123, 34, 77, 105, 115, 115, 105, 110, 103, 32, 99, 111, 108, 111, 110, 34, 32, 110, 117, 108, 108, 125, 0]

/-- Data/Test/jsonchecker/fail20.json -/
def fail20 : Bytes :=
  [123, 34, 68, 111, 117, 98, 108, 101, 32, 99, 111, 108, 111, 110, 34, 58, 58, 32, 110, 117, 108, 108, 125, 0]

/-- Data/Test/jsonchecker/fail21.json -/
def fail21 : Bytes :=
  [123, 34, 67, 111, 109, 109, 97, 32, 105, 110, 115, 116, 101, 97, 100, 32, 111, 102, 32, 99, 111, 108, 111, 110, 34, 44, 32, 110, 117, 108, 108,
  125, 0]

/-- Data/Test/jsonchecker/fail22.json -/
def fail22 : Bytes :=
  [91, 34, 67, 111, 108, 111, 110, 32, 105, 110, 115, 116, 101, 97, 100, 32, 111, 102, 32, 99, 111, 109, 109, 97, 34, 58, 32, 102, 97, 108, 115,
  101, 93, 0]

/-- Data/Test/jsonchecker/fail23.json -/
def fail23 : Bytes :=
  [91, 34, 66, 97, 100, 32, 118, 97, 108, 117, 101, 34, 44, 32, 116, 114, 117, 116, 104, 93, 0]

/-- Data/Test/jsonchecker/fail24.json -/
def fail24 : Bytes :=
  [91, 39, 115, 105, 110, 103, 108, 101, 32, 113, 117, 111, 116, 101, 39, 93, 0]

/-- Data/Test/jsonchecker/fail25.json -/
def fail25 : Bytes :=
  [91, 34, 9, 116, 97, 98, 9, 99, 104, 97, 114, 97, 99, 116, 101, 114, 9, 105, 110, 9, 115, 116, 114, 105, 110, 103, 9, 34, 93, 0]

/-- Data/Test/jsonchecker/fail26.json -/
def fail26 : Bytes :=
  [91, 34, 116, 97, 98, 92, 32, 32, 32, 99, 104, 97, 114, 97, 99, 116, 101, 114, 92, 32, 32, 32, 105, 110, 92, 32, 32, 115, 116, 114, 105, 110,
  103, 92, 32, 32, 34, 93, 0]

/-- Data/Test/jsonchecker/fail27.json -/
def fail27 : Bytes :=
  [91, 34, 108, 105, 110, 101, 10, 98, 114, 101, 97, 107, 34, 93, 0]

/-- Data/Test/jsonchecker/fail28.json -/
def fail28 : Bytes :=
  [91, 34, 108, 105, 110, 101, 92, 10, 98, 114, 101, 97, 107, 34, 93, 0]

/-- Data/Test/jsonchecker/fail29.json -/
def fail29 : Bytes :=
  [91, 48, 101, 93, 0]

/-- Data/Test/jsonchecker/fail30.json -/
def fail30 : Bytes :=
  [91, 48, 101, 43, 93, 0]

/-- Data/Test/jsonchecker/fail31.json -/
def fail31 : Bytes :=
  [91, 48, 101, 43, 45, 49, 93, 0]

/-- Data/Test/jsonchecker/fail32.json -/
def fail32 : Bytes :=
  [123, 34, 67, 111, 109, 109, 97, 32, 105, 110, 115, 116, 101, 97, 100, 32, 105, 102, 32, 99, 108, 111, 115, 105, 110, 103, 32, 98, 114, 97, 99,
  101, 34, 58, 32, 116, 114, 117, 101, 44, 0]

/-- Data/Test/jsonchecker/fail33.json, which test03.cpp leaves out. -/
def fail33 : Bytes :=
  [91, 34, 109, 105, 115, 109, 97, 116, 99, 104, 34, 125, 0]

/-- Data/Test/jsonchecker/fail1_PASSES_RFC_8259.json -/
def fail1 : Bytes :=
  [34, 65, 32, 74, 83, 79, 78, 32, 112, 97, 121, 108, 111, 97, 100, 32, 115, 104, 111, 117, 108, 100, 32, 98, 101, 32, 97, 110, 32, 111, 98, 106,
  101, 99, 116, 32, 111, 114, 32, 97, 114, 114, 97, 121, 44, 32, 110, 111, 116, 32, 97, 32, 115, 116, 114, 105, 110, 103, 46, 34, 0]

/-- Data/Test/jsonchecker/fail18_PASSES_RFC_8259.json -/
def fail18 : Bytes :=
  [91, 91, 91, 91, 91, 91, 91, 91, 91, 91, 91, 91, 91, 91, 91, 91, 91, 91, 91, 91, 34, 84, 111, 111, 32, 100, 101, 101, 112, 34, 93, 93, 93, 93,
  93, 93, 93, 93, 93, 93, 93, 93, 93, 93, 93, 93, 93, 93, 93, 93, 0]

/-- Data/Test/jsonchecker/pass1.json -/
def pass1 : Bytes :=
  [91, 10, 32, 32, 32, 32, 34, 74, 83, 79, 78, 32, 84, 101, 115, 116, 32, 80, 97, 116, 116, 101, 114, 110, 32, 112, 97, 115, 115, 49, 34, 44, 10,
  32, 32, 32, 32, 123, 34, 111, 98, 106, 101, 99, 116, 32, 119, 105, 116, 104, 32, 49, 32, 109, 101, 109, 98, 101, 114, 34, 58, 91, 34, 97, 114,
  114, 97, 121, 32, 119, 105, 116, 104, 32, 49, 32, 101, 108, 101, 109, 101, 110, 116, 34, 93, 125, 44, 10, 32, 32, 32, 32, 123, 125, 44, 10, 32,
  32, 32, 32, 91, 93, 44, 10, 32, 32, 32, 32, 45, 52, 50, 44, 10, 32, 32, 32, 32, 116, 114, 117, 101, 44, 10, 32, 32, 32, 32, 102, 97, 108, 115,
  101, 44, 10, 32, 32, 32, 32, 110, 117, 108, 108, 44, 10, 32, 32, 32, 32, 123, 10, 32, 32, 32, 32, 32, 32, 32, 32, 34, 105, 110, 116, 101, 103,
  101, 114, 34, 58, 32, 49, 50, 51, 52, 53, 54, 55, 56, 57, 48, 44, 10, 32, 32, 32, 32, 32, 32, 32, 32, 34, 114, 101, 97, 108, 34, 58, 32, 45,
  57, 56, 55, 54, 46, 53, 52, 51, 50, 49, 48, 44, 10, 32, 32, 32, 32, 32, 32, 32, 32, 34, 101, 34, 58, 32, 48, 46, 49, 50, 51, 52, 53, 54, 55,
  56, 57, 101, 45, 49, 50, 44, 10, 32, 32, 32, 32, 32, 32, 32, 32, 34, 69, 34, 58, 32, 49, 46, 50, 51, 52, 53, 54, 55, 56, 57, 48, 69, 43, 51,
  52, 44, 10, 32, 32, 32, 32, 32, 32, 32, 32, 34, 34, 58, 32, 32, 50, 51, 52, 53, 54, 55, 56, 57, 48, 49, 50, 69, 54, 54, 44, 10, 32, 32, 32, 32,
  32, 32, 32, 32, 34, 122, 101, 114, 111, 34, 58, 32, 48, 44, 10, 32, 32, 32, 32, 32, 32, 32, 32, 34, 111, 110, 101, 34, 58, 32, 49, 44, 10, 32,
  32, 32, 32, 32, 32, 32, 32, 34, 115, 112, 97, 99, 101, 34, 58, 32, 34, 32, 34, 44, 10, 32, 32, 32, 32, 32, 32, 32, 32, 34, 113, 117, 111, 116,
  101, 34, 58, 32, 34, 92, 34, 34, 44, 10, 32, 32, 32, 32, 32, 32, 32, 32, 34, 98, 97, 99, 107, 115, 108, 97, 115, 104, 34, 58, 32, 34, 92, 92,
  34, 44, 10, 32, 32, 32, 32, 32, 32, 32, 32, 34, 99, 111, 110, 116, 114, 111, 108, 115, 34, 58, 32, 34, 92, 98, 92, 102, 92, 110, 92, 114, 92,
  116, 34, 44, 10, 32, 32, 32, 32, 32, 32, 32, 32, 34, 115, 108, 97, 115, 104, 34, 58, 32, 34, 47, 32, 38, 32, 92, 47, 34, 44, 10, 32, 32, 32,
  32, 32, 32, 32, 32, 34, 97, 108, 112, 104, 97, 34, 58, 32, 34, 97, 98, 99, 100, 101, 102, 103, 104, 105, 106, 107, 108, 109, 110, 111, 112,
  113, 114, 115, 116, 117, 118, 119, 121, 122, 34, 44, 10, 32, 32, 32, 32, 32, 32, 32, 32, 34, 65, 76, 80, 72, 65, 34, 58, 32, 34, 65, 66, 67,
  68, 69, 70, 71, 72, 73, 74, 75, 76, 77, 78, 79, 80, 81, 82, 83, 84, 85, 86, 87, 89, 90, 34, 44, 10, 32, 32, 32, 32, 32, 32, 32, 32, 34, 100,
  105, 103, 105, 116, 34, 58, 32, 34, 48, 49, 50, 51, 52, 53, 54, 55, 56, 57, 34, 44, 10, 32, 32, 32, 32, 32, 32, 32, 32, 34, 48, 49, 50, 51, 52,
  53, 54, 55, 56, 57, 34, 58, 32, 34, 100, 105, 103, 105, 116, 34, 44, 10, 32, 32, 32, 32, 32, 32, 32, 32, 34, 115, 112, 101, 99, 105, 97, 108,
  34, 58, 32, 34, 96, 49, 126, 33, 64, 35, 36, 37, 94, 38, 42, 40, 41, 95, 43, 45, 61, 123, 39, 58, 91, 44, 93, 125, 124, 59, 46, 60, 47, 62, 63,
  34, 44, 10, 32, 32, 32, 32, 32, 32, 32, 32, 34, 104, 101, 120, 34, 58, 32, 34, 92, 117, 48, 49, 50, 51, 92, 117, 52, 53, 54, 55, 92, 117, 56,
  57, 65, 66, 92, 117, 67, 68, 69, 70, 92, 117, 97, 98, 99, 100, 92, 117, 101, 102, 52, 65, 34, 44, 10, 32, 32, 32, 32, 32, 32, 32, 32, 34, 116,
  114, 117, 101, 34, 58, 32, 116, 114, 117, 101, 44, 10, 32, 32, 32, 32, 32, 32, 32, 32, 34, 102, 97, 108, 115, 101, 34, 58, 32, 102, 97, 108,
  115, 101, 44, 10, 32, 32, 32, 32, 32, 32, 32, 32, 34, 110, 117, 108, 108, 34, 58, 32, 110, 117, 108, 108, 44, 10, 32, 32, 32, 32, 32, 32, 32,
  32, 34, 97, 114, 114, 97, 121, 34, 58, 91, 32, 32, 93, 44, 10, 32, 32, 32, 32, 32, 32, 32, 32, 34, 111, 98, 106, 101, 99, 116, 34, 58, 123, 32,
  32, 125, 44, 10, 32, 32, 32, 32, 32, 32, 32, 32, 34, 97, 100, 100, 114, 101, 115, 115, 34, 58, 32, 34, 53, 48, 32, 83, 116, 46, 32, 74, 97,
  109, 101, 115, 32, 83, 116, 114, 101, 101, 116, 34, 44, 10, 32, 32, 32, 32, 32, 32, 32, 32, 34, 117, 114, 108, 34, 58, 32, 34, 104, 116, 116,
  112, 58, 47, 47, 119, 119, 119, 46, 74, 83, 79, 78, 46, 111, 114, 103, 47, 34, 44, 10, 32, 32, 32, 32, 32, 32, 32, 32, 34, 99, 111, 109, 109,
  101, 110, 116, 34, 58, 32, 34, 47, 47, 32, 47, 42, 32, 60, 33, 45, 45, 32, 45, 45, 34, 44, 10, 32, 32, 32, 32, 32, 32, 32, 32, 34, 35, 32, 45,
  45, 32, 45, 45, 62, 32, 42, 47, 34, 58, 32, 34, 32, 34, 44, 10, 32, 32, 32, 32, 32, 32, 32, 32, 34, 32, 115, 32, 112, 32, 97, 32, 99, 32, 101,
  32, 100, 32, 34, 32, 58, 91, 49, 44, 50, 32, 44, 32, 51, 10, 10, 44, 10, 10, 52, 32, 44, 32, 53, 32, 32, 32, 32, 32, 32, 32, 32, 44, 32, 32,
  32, 32, 32, 32, 32, 32, 32, 32, 54, 32, 32, 32, 32, 32, 32, 32, 32, 32, 32, 32, 44, 55, 32, 32, 32, 32, 32, 32, 32, 32, 93, 44, 34, 99, 111,
  109, 112, 97, 99, 116, 34, 58, 91, 49, 44, 50, 44, 51, 44, 52, 44, 53, 44, 54, 44, 55, 93, 44, 10, 32, 32, 32, 32, 32, 32, 32, 32, 34, 106,
  115, 111, 110, 116, 101, 120, 116, 34, 58, 32, 34, 123, 92, 34, 111, 98, 106, 101, 99, 116, 32, 119, 105, 116, 104, 32, 49, 32, 109, 101, 109,
  98, 101, 114, 92, 34, 58, 91, 92, 34, 97, 114, 114, 97, 121, 32, 119, 105, 116, 104, 32, 49, 32, 101, 108, 101, 109, 101, 110, 116, 92, 34, 93,
  125, 34, 44, 10, 32, 32, 32, 32, 32, 32, 32, 32, 34, 113, 117, 111, 116, 101, 115, 34, 58, 32, 34, 38, 35, 51, 52, 59, 32, 92, 117, 48, 48, 50,
  50, 32, 37, 50, 50, 32, 48, 120, 50, 50, 32, 48, 51, 52, 32, 38, 35, 120, 50, 50, 59, 34, 44, 10, 32, 32, 32, 32, 32, 32, 32, 32, 34, 92, 47,
  92, 92, 92, 34, 92, 117, 67, 65, 70, 69, 92, 117, 66, 65, 66, 69, 92, 117, 65, 66, 57, 56, 92, 117, 70, 67, 68, 69, 92, 117, 98, 99, 100, 97,
  92, 117, 101, 102, 52, 65, 92, 98, 92, 102, 92, 110, 92, 114, 92, 116, 96, 49, 126, 33, 64, 35, 36, 37, 94, 38, 42, 40, 41, 95, 43, 45, 61, 91,
  93, 123, 125, 124, 59, 58, 39, 44, 46, 47, 60, 62, 63, 34, 10, 58, 32, 34, 65, 32, 107, 101, 121, 32, 99, 97, 110, 32, 98, 101, 32, 97, 110,
  121, 32, 115, 116, 114, 105, 110, 103, 34, 10, 32, 32, 32, 32, 125, 44, 10, 32, 32, 32, 32, 48, 46, 53, 32, 44, 57, 56, 46, 54, 10, 44, 10, 57,
  57, 46, 52, 52, 10, 44, 10, 10, 49, 48, 54, 54, 44, 10, 49, 101, 49, 44, 10, 48, 46, 49, 101, 49, 44, 10, 49, 101, 45, 49, 44, 10, 49, 101, 48,
  48, 44, 50, 101, 43, 48, 48, 44, 50, 101, 45, 48, 48, 10, 44, 34, 114, 111, 115, 101, 98, 117, 100, 34, 93, 0]

/-- Data/Test/jsonchecker/pass2.json -/
def pass2 : Bytes :=
  [91, 91, 91, 91, 91, 91, 91, 91, 91, 91, 91, 91, 91, 91, 91, 91, 91, 91, 91, 34, 78, 111, 116, 32, 116, 111, 111, 32, 100, 101, 101, 112, 34, 93,
  93, 93, 93, 93, 93, 93, 93, 93, 93, 93, 93, 93, 93, 93, 93, 93, 93, 93, 0]

/-- Data/Test/jsonchecker/pass3.json -/
def pass3 : Bytes :=
  [123, 10, 32, 32, 32, 32, 34, 74, 83, 79, 78, 32, 84, 101, 115, 116, 32, 80, 97, 116, 116, 101, 114, 110, 32, 112, 97, 115, 115, 51, 34, 58, 32,
  123, 10, 32, 32, 32, 32, 32, 32, 32, 32, 34, 84, 104, 101, 32, 111, 117, 116, 101, 114, 109, 111, 115, 116, 32, 118, 97, 108, 117, 101, 34, 58,
  32, 34, 109, 117, 115, 116, 32, 98, 101, 32, 97, 110, 32, 111, 98, 106, 101, 99, 116, 32, 111, 114, 32, 97, 114, 114, 97, 121, 46, 34, 44, 10,
  32, 32, 32, 32, 32, 32, 32, 32, 34, 73, 110, 32, 116, 104, 105, 115, 32, 116, 101, 115, 116, 34, 58, 32, 34, 73, 116, 32, 105, 115, 32, 97,
  110, 32, 111, 98, 106, 101, 99, 116, 46, 34, 10, 32, 32, 32, 32, 125, 10, 125, 10, 0]

/-- Data/Test/test_file01.json -/
def file01 : Bytes :=
  [123, 10, 32, 32, 32, 32, 32, 32, 32, 32, 32, 32, 32, 32, 32, 34, 100, 111, 117, 98, 108, 101, 34, 58, 32, 50, 46, 51, 54, 53, 51, 49, 101, 45,
  55, 44, 10, 32, 32, 32, 32, 34, 115, 116, 114, 49, 34, 58, 32, 34, 115, 116, 114, 49, 86, 97, 108, 117, 101, 34, 44, 34, 115, 116, 114, 50, 34,
  58, 32, 32, 32, 34, 115, 116, 114, 50, 86, 97, 108, 117, 101, 34, 44, 10, 32, 32, 32, 32, 34, 98, 111, 111, 108, 34, 58, 116, 114, 117, 101,
  44, 10, 32, 32, 32, 32, 34, 110, 117, 108, 108, 34, 58, 32, 32, 32, 32, 32, 32, 32, 32, 32, 110, 117, 108, 108, 10, 125, 0]

/-- Data/Test/test_file02.json -/
def file02 : Bytes :=
  [123, 10, 32, 32, 32, 32, 34, 100, 111, 117, 98, 108, 101, 34, 58, 32, 50, 46, 52, 53, 101, 45, 50, 44, 10, 32, 32, 32, 32, 34, 100, 111, 117,
  98, 108, 101, 65, 114, 114, 97, 121, 34, 58, 32, 91, 32, 51, 44, 32, 52, 44, 32, 53, 44, 32, 49, 46, 54, 53, 101, 49, 55, 44, 32, 45, 50, 46,
  51, 53, 101, 45, 50, 48, 44, 32, 49, 46, 57, 54, 52, 51, 101, 45, 49, 49, 32, 93, 44, 10, 32, 32, 32, 32, 34, 115, 116, 114, 105, 110, 103, 65,
  114, 114, 97, 121, 34, 58, 32, 91, 32, 34, 115, 116, 114, 49, 34, 44, 32, 34, 115, 116, 114, 50, 34, 44, 32, 34, 115, 116, 114, 51, 34, 44, 32,
  34, 115, 116, 114, 52, 34, 32, 93, 44, 10, 32, 32, 32, 32, 34, 111, 98, 106, 101, 99, 116, 34, 58, 32, 123, 10, 32, 32, 32, 32, 32, 32, 32, 32,
  34, 98, 111, 111, 108, 34, 58, 32, 102, 97, 108, 115, 101, 44, 10, 32, 32, 32, 32, 32, 32, 32, 32, 34, 111, 98, 106, 101, 99, 116, 65, 114,
  114, 97, 121, 34, 58, 32, 91, 10, 32, 32, 32, 32, 32, 32, 32, 32, 32, 32, 32, 32, 123, 10, 32, 32, 32, 32, 32, 32, 32, 32, 32, 32, 32, 32, 32,
  32, 32, 32, 34, 100, 111, 117, 98, 108, 101, 34, 58, 32, 51, 46, 52, 54, 44, 10, 32, 32, 32, 32, 32, 32, 32, 32, 32, 32, 32, 32, 32, 32, 32,
  32, 34, 115, 116, 114, 105, 110, 103, 34, 58, 32, 34, 115, 116, 114, 53, 34, 10, 32, 32, 32, 32, 32, 32, 32, 32, 32, 32, 32, 32, 125, 44, 10,
  32, 32, 32, 32, 32, 32, 32, 32, 32, 32, 32, 32, 123, 10, 32, 32, 32, 32, 32, 32, 32, 32, 32, 32, 32, 32, 32, 32, 32, 32, 34, 100, 111, 117, 98,
  108, 101, 34, 58, 32, 50, 46, 52, 54, 44, 10, 32, 32, 32, 32, 32, 32, 32, 32, 32, 32, 32, 32, 32, 32, 32, 32, 34, 115, 116, 114, 105, 110, 103,
  34, 58, 32, 34, 115, 116, 114, 54, 34, 10, 32, 32, 32, 32, 32, 32, 32, 32, 32, 32, 32, 32, 125, 44, 10, 32, 32, 32, 32, 32, 32, 32, 32, 32, 32,
  32, 32, 123, 10, 32, 32, 32, 32, 32, 32, 32, 32, 32, 32, 32, 32, 32, 32, 32, 32, 34, 100, 111, 117, 98, 108, 101, 34, 58, 32, 45, 50, 46, 52,
  54, 44, 10, 32, 32, 32, 32, 32, 32, 32, 32, 32, 32, 32, 32, 32, 32, 32, 32, 34, 115, 116, 114, 105, 110, 103, 34, 58, 32, 34, 115, 116, 114,
  55, 34, 10, 32, 32, 32, 32, 32, 32, 32, 32, 32, 32, 32, 32, 125, 10, 32, 32, 32, 32, 32, 32, 32, 32, 93, 10, 32, 32, 32, 32, 125, 10, 125, 0]

/-- Data/Test/test_file04.json -/
def file04 : Bytes :=
  [123, 10, 32, 32, 32, 32, 34, 118, 101, 114, 115, 105, 111, 110, 34, 58, 32, 34, 49, 46, 48, 46, 49, 34, 44, 10, 32, 32, 32, 32, 34, 115, 116,
  114, 105, 110, 103, 77, 97, 112, 34, 58, 32, 123, 10, 32, 32, 32, 32, 32, 32, 32, 32, 34, 115, 116, 114, 49, 34, 58, 32, 34, 115, 116, 114, 49,
  118, 34, 44, 10, 32, 32, 32, 32, 32, 32, 32, 32, 34, 115, 116, 114, 50, 34, 58, 32, 34, 115, 116, 114, 50, 118, 34, 44, 10, 32, 32, 32, 32, 32,
  32, 32, 32, 34, 115, 116, 114, 51, 34, 58, 32, 34, 115, 116, 114, 51, 118, 34, 10, 32, 32, 32, 32, 125, 10, 125, 0]

/-- Data/Examples/car.json -/
def car : Bytes :=
  [123, 10, 32, 32, 34, 109, 97, 107, 101, 34, 58, 32, 34, 67, 111, 108, 111, 114, 97, 100, 111, 34, 44, 10, 32, 32, 34, 109, 111, 100, 101, 108,
  34, 58, 32, 34, 77, 51, 48, 48, 48, 34, 44, 10, 32, 32, 34, 114, 103, 98, 67, 111, 108, 111, 114, 34, 58, 32, 91, 32, 48, 46, 51, 44, 32, 48,
  46, 49, 44, 32, 48, 46, 54, 32, 93, 44, 10, 32, 32, 34, 108, 101, 110, 103, 116, 104, 34, 58, 32, 52, 55, 48, 50, 44, 10, 32, 32, 34, 119, 105,
  100, 116, 104, 34, 58, 32, 50, 48, 51, 50, 44, 10, 32, 32, 34, 109, 101, 99, 104, 97, 110, 105, 99, 97, 108, 34, 58, 32, 123, 10, 32, 32, 32,
  32, 34, 104, 111, 114, 115, 101, 112, 111, 119, 101, 114, 34, 58, 32, 50, 52, 53, 48, 44, 10, 32, 32, 32, 32, 34, 103, 101, 97, 114, 82, 97,
  116, 105, 111, 115, 34, 58, 32, 91, 32, 51, 46, 50, 44, 32, 50, 46, 53, 44, 32, 49, 46, 55, 44, 32, 49, 46, 50, 44, 32, 48, 46, 54, 32, 93, 44,
  10, 32, 32, 32, 32, 34, 97, 117, 116, 111, 109, 97, 116, 105, 99, 34, 58, 32, 116, 114, 117, 101, 10, 32, 32, 125, 44, 10, 32, 32, 34, 112,
  114, 105, 99, 101, 36, 34, 58, 32, 50, 46, 50, 50, 53, 48, 55, 51, 56, 53, 56, 53, 48, 55, 50, 48, 49, 52, 101, 45, 51, 48, 56, 10, 125, 0]

/-- Data/Examples/simple_error.json -/
def simpleError : Bytes :=
  [123, 10, 9, 34, 116, 101, 120, 116, 34, 32, 32, 58, 32, 34, 67, 111, 108, 111, 114, 34, 44, 10, 9, 34, 119, 105, 100, 116, 104, 34, 32, 58, 32,
  53, 97, 44, 10, 9, 34, 104, 101, 105, 103, 104, 116, 34, 58, 32, 49, 48, 10, 125, 0]

/-- Data/Examples/simple.json -/
def simple : Bytes :=
  [123, 10, 9, 34, 116, 101, 120, 116, 34, 32, 32, 58, 32, 34, 67, 111, 108, 111, 114, 34, 44, 10, 9, 34, 119, 105, 100, 116, 104, 34, 32, 58, 32,
  53, 44, 10, 9, 34, 104, 101, 105, 103, 104, 116, 34, 58, 32, 49, 48, 10, 125, 0]

/-- Data/Examples/simple_with_array.json -/
def simpleArray : Bytes :=
  [123, 10, 9, 34, 116, 101, 120, 116, 34, 32, 32, 58, 32, 34, 67, 111, 108, 111, 114, 34, 44, 10, 9, 34, 119, 105, 100, 116, 104, 34, 32, 58, 32,
  53, 44, 10, 9, 34, 104, 101, 105, 103, 104, 116, 34, 58, 32, 49, 48, 44, 10, 9, 34, 108, 105, 110, 101, 115, 112, 101, 99, 34, 32, 58, 32, 91,
  32, 48, 46, 53, 44, 32, 48, 46, 50, 44, 32, 48, 46, 52, 44, 32, 48, 46, 49, 32, 93, 10, 125, 0]

/-- The answer of `Parse`. -/
def report (b : Bytes) : Option ParseResult :=
  match parseBuffer B64.ops none b with
  | .ok r => some r.1
  | _ => none

/-- The data that `DeserializeTo` leaves in a fresh object of type `t`. -/
def load (t : Ty) (v : Value B64.Dbl) : Status × t.Den B64.Dbl :=
  deserialize (blank (B64.conv false 0 0)) t v (blank (B64.conv false 0 0) t)

/-- `DeserializeTo` succeeds and leaves the data `d`. -/
def Loads (t : Ty) (v : Option (Value B64.Dbl)) (d : t.Den B64.Dbl) : Prop := ∃ w, v = some w ∧ load t w = (.kOk, d)

/-- A test for `Loads`. -/
def loads (t : Ty) [DecidableEq (t.Den B64.Dbl)] (v : Option (Value B64.Dbl)) (d : t.Den B64.Dbl) : Bool :=
  match v with
  | none => false
  | some w => decide ((load t w).1 = .kOk) && decide ((load t w).2 = d)

theorem loads_spec {t : Ty} [DecidableEq (t.Den B64.Dbl)] {v : Option (Value B64.Dbl)} {d : t.Den B64.Dbl} (h : loads t v d = true) :
    Loads t v d := by
  cases v with
  | none => cases h
  | some w =>
    simp only [loads, Bool.and_eq_true, decide_eq_true_eq] at h
    exact ⟨w, rfl, Prod.ext h.1 h.2⟩

/-- The document made by `Parse`. -/
def document (b : Bytes) : Option (Value B64.Dbl) :=
  match parseBuffer B64.ops none b with
  | .ok r => r.2
  | _ => none

/-! ## test03.cpp -/

/-- Every file of `mustFail` is refused. -/
example : ∀ b ∈ [fail2, fail3, fail4, fail5, fail6, fail7, fail8, fail9, fail10, fail11, fail12, fail13, fail14, fail15, fail16, fail17, fail19,
    fail20, fail21, fail22, fail23, fail24, fail25, fail26, fail27, fail28, fail29, fail30, fail31, fail32],
    ∃ r, report b = some r ∧ r.status ≠ .kOk := by
  have h : ∀ b ∈ [fail2, fail3, fail4, fail5, fail6, fail7, fail8, fail9, fail10, fail11, fail12, fail13, fail14, fail15, fail16, fail17, fail19,
      fail20, fail21, fail22, fail23, fail24, fail25, fail26, fail27, fail28, fail29, fail30, fail31, fail32],
      ((report b).map fun r => r.status != .kOk) = some true := by decide +kernel
  intro b hb
  have := h b hb
  cases e : report b with
  | none => rw [e] at this; cases this
  | some r => rw [e] at this; exact ⟨r, rfl, by simpa using this⟩

/-- Some of the answers: a closing bracket is missing, a comma too many, a text after the document, a bare TAB in a string, an illegal escape, a
number with a leading zero, the wrong bracket, and the end of the text. -/
example : report fail2 = some ⟨.kExpectedClosingSquareBracketsOrComma, 1, 18⟩ ∧ report fail4 = some ⟨.kExpectedJsonValue, 1, 16⟩ ∧
    report fail8 = some ⟨.kExpectedEndOfFile, 1, 16⟩ ∧ report fail25 = some ⟨.kStringIllegalChar, 1, 4⟩ ∧
    report fail15 = some ⟨.kStringIllegalEscape, 1, 3⟩ ∧ report fail13 = some ⟨.kNumbersCannotHaveLeadingZeros, 1, 40⟩ ∧
    report fail33 = some ⟨.kExpectedClosingSquareBracketsOrComma, 1, 12⟩ ∧ report fail32 = some ⟨.kExpectedBeginingDoubleQuotes, 1, 41⟩ := by
  decide +kernel

/-- Every file of `mustPass` is accepted. -/
example : ∀ b ∈ [fail1, fail18, pass1, pass2, pass3], report b = some ⟨.kOk, 0, 0⟩ := by decide +kernel

/-! ## test01.cpp -/

/-- `TestFile01`: the fields `str1`, `str2`, `double`, `bool` and `null`. -/
def testFile01 : Ty :=
  .struct 0 (.named false [115, 116, 114, 49] .str (.named false [115, 116, 114, 50] .stdString (.named false [100, 111, 117, 98, 108, 101] .num
    (.named false [98, 111, 111, 108] .bool (.named false [110, 117, 108, 108] .null .nil)))))

instance : DecidableEq (testFile01.Den B64.Dbl) := inferInstanceAs (DecidableEq (Bytes × Bytes × B64.Dbl × Bool × Unit × Unit))

/-- `str1Value`, `str2Value`, 2.36531e-7 and `true` are read. -/
example : Loads testFile01 (document file01)
    ([115, 116, 114, 49, 86, 97, 108, 117, 101], [115, 116, 114, 50, 86, 97, 108, 117, 101], B64.conv false 236531 (-12), true, (), ()) :=
  loads_spec (by decide +kernel)

/-! ## test02.cpp -/

/-- `ObjectInObjectArray`, `Object` and `RootObject`. -/
def objectInObjectArray : Ty :=
  .struct 1 (.named false [100, 111, 117, 98, 108, 101] .num (.named false [115, 116, 114, 105, 110, 103] .str .nil))
def object : Ty :=
  .struct 2 (.named false [98, 111, 111, 108] .bool
    (.named false [111, 98, 106, 101, 99, 116, 65, 114, 114, 97, 121] (.arr objectInObjectArray) .nil))
def rootObject : Ty :=
  .struct 3 (.named false [100, 111, 117, 98, 108, 101] .num (.named false [100, 111, 117, 98, 108, 101, 65, 114, 114, 97, 121] (.arr .num)
    (.named false [115, 116, 114, 105, 110, 103, 65, 114, 114, 97, 121] (.arr .str) (.named false [111, 98, 106, 101, 99, 116] object .nil))))

/-- `rootObject` after the file is read and the third object changed; `x` is the number of the third object. -/
def rootData (x : B64.Dbl) : rootObject.Den B64.Dbl :=
  (B64.conv false 245 (-4),
    [B64.conv false 3 0, B64.conv false 4 0, B64.conv false 5 0, B64.conv false 165 15, B64.conv true 235 (-22), B64.conv false 19643 (-15)],
    [[115, 116, 114, 49], [115, 116, 114, 50], [115, 116, 114, 51], [115, 116, 114, 52]],
    (false, [(B64.conv false 346 (-2), [115, 116, 114, 53], ()), (B64.conv false 246 (-2), [115, 116, 114, 54], ()), (x, [115, 116, 114, 55], ())], ()), ())

instance : DecidableEq (objectInObjectArray.Den B64.Dbl) := inferInstanceAs (DecidableEq (B64.Dbl × Bytes × Unit))
instance : DecidableEq (object.Den B64.Dbl) := inferInstanceAs (DecidableEq (Bool × List (objectInObjectArray.Den B64.Dbl) × Unit))
instance : DecidableEq (List B64.Dbl × List Bytes × object.Den B64.Dbl × Unit) := inferInstance
instance : DecidableEq (rootObject.Den B64.Dbl) := inferInstanceAs (DecidableEq (B64.Dbl × List B64.Dbl × List Bytes × object.Den B64.Dbl × Unit))

/-- What the file contains. -/
example : Loads rootObject (document file02) (rootData (B64.conv true 246 (-2))) := loads_spec (by decide +kernel)

/-- The text written by `Write` with an indentation of two spaces, after `SerializeFrom`. -/
def saved (d : rootObject.Den B64.Dbl) : Option Bytes :=
  match serializeFrom (B64.conv false 0 0) rootObject d with
  | .ok (.kOk, v) =>
    match Write.writeValue B64.ops 2 32 100 [] v with
    | .ok w => if w.status = .kOk then some w.chunks.flatten else none
    | _ => none
  | _ => none

/-- After the change the object is serialized, written, parsed and deserialized again. -/
example : Loads rootObject ((saved (rootData (B64.conv false 314159 (-22)))).bind fun t => document (t ++ [0]))
    (rootData (B64.conv false 314159 (-22))) := loads_spec (by decide +kernel)

/-! ## test04.cpp and test05.cpp -/

/-- `MapExample` with the maps of this library and of the C++ library. -/
def mapExample : Ty :=
  .struct 4 (.named false [118, 101, 114, 115, 105, 111, 110] .str (.named false [115, 116, 114, 105, 110, 103, 77, 97, 112] (.map .str) .nil))
def stdMapExample : Ty :=
  .struct 5 (.named false [118, 101, 114, 115, 105, 111, 110] .stdString
    (.named false [115, 116, 114, 105, 110, 103, 77, 97, 112] (.stdMap .stdString) .nil))

instance : DecidableEq (mapExample.Den B64.Dbl) := inferInstanceAs (DecidableEq (Bytes × List (Bytes × Bytes) × Unit))
instance : DecidableEq (stdMapExample.Den B64.Dbl) := inferInstanceAs (DecidableEq (Bytes × List (Bytes × Bytes) × Unit))

/-- `1.0.1`, and the three entries of the map. -/
def mapEntries : Bytes × List (Bytes × Bytes) × Unit :=
  ([49, 46, 48, 46, 49], [([115, 116, 114, 49], [115, 116, 114, 49, 118]), ([115, 116, 114, 50], [115, 116, 114, 50, 118]),
    ([115, 116, 114, 51], [115, 116, 114, 51, 118])], ())

example : Loads mapExample (document file04) mapEntries ∧ Loads stdMapExample (document file04) mapEntries ∧
    (document file04).map (validate stdMapExample) = some .kOk :=
  ⟨loads_spec (by decide +kernel), loads_spec (by decide +kernel), by decide +kernel⟩

/-! ## Examples -/

/-- The files of the examples are accepted, but for the one of Example 4: `5a` in line 3, where the `a` is in column 13. -/
example : (∀ b ∈ [car, simple, simpleArray], report b = some ⟨.kOk, 0, 0⟩) ∧
    report simpleError = some ⟨.kExpectedClosingCurlyBracesOrComma, 3, 13⟩ := by decide +kernel

end Verif.Suite
