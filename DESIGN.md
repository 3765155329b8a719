# Design: a Lean model of Json4C4 and what is proved about it

Source under study: `/repo` (nasosi/Json4C4), read as text, never built or run.
Lean project: `/verif/lean`, library `Verif`.

## 1. Layout

| Module | Content |
|---|---|
| `Verif/Base.lean` | bytes, status codes, outcomes (`ok`, `ub`, `fuel`) |
| `Verif/Model/*.lean` | the model, function by function, each definition citing file and lines |
| `Verif/Spec/*.lean` | independent specifications (RFC 8259 grammar, UTF-8, finite maps, sequences, data types) |
| `Verif/Lemmas/*.lean` | auxiliary lemmas |
| `Verif/Props/*.lean` | the property theorems, each followed by a concrete `example` |

`MANIFEST.json` maps each property of `properties.jsonl` to theorem names.
`seeded/LOG.jsonl` logs the seeded-bug experiments.

## 2. Modelling conventions

* **Text pointers.** A `const char*` into a buffer is the list of bytes from the
  pointer to the end of the buffer (terminator included). Reading past the end
  of the list is the outcome `ub`; it is never totalised away.
* **Undefined behaviour** (out-of-bounds read or write, null dereference, use
  after free, reading past a table) is always a separate outcome, written `ub`
  or `none` with a comment.
* **Loops and recursion** carry explicit fuel. Running out of fuel is a separate
  outcome `fuel`. Termination theorems show that fuel linear in the input never
  runs out.
* **Numbers.** The conversion functions `strtod` and `snprintf("%.17g")` belong
  to the C library. The syntax `strtod` accepts is modelled concretely, its
  rounding is a parameter; theorems quantify over every conversion. The instance
  `B64.ops` is IEEE 754 binary64 with correctly rounding conversions (C25, C63, C64).
* **Maps.** `Terathon::Map` is a threaded AVL tree. It is modelled as a tree with
  balance factors; the loops that climb through parent pointers are modelled with
  an explicit path (zipper), in the order of the code.
* **Allocation** succeeds, except where a property is about allocation failure.
* **Integers.** `int32` positions and counts are natural numbers; the effect
  of 32-bit overflow is modelled separately (C135, C136).
* **Recursion depth.** The C++ stack is not bounded in the model of the parser;
  `Model/Stack` repeats it with a limit.

## 3. Trusted base

* Lean 4.33.0's kernel, and the axioms `propext`, `Classical.choice`, `Quot.sound`. Every theorem of
  `MANIFEST.json` depends on a subset of these three (checked with `#print axioms`; `vcheck` replays
  all modules through the kernel). No own axiom, no `sorry`, no `native_decide`, no `bv_decide`, no
  `unsafe`, no `implemented_by`. Concrete examples use `decide`, `decide +kernel` or `rfl`, which
  are checked by the kernel.
* That the model reflects the code. Every definition cites the lines it represents; simplifications
  are stated in its comment or in the header of its module.
  `Props/Suite.lean` runs the repository's tests on the model (Code/Tests/test01.cpp to test05.cpp and Example 4; Examples 2, 3 and 6 are in `Props/Workflow.lean`; with their files, binary64
  numbers): all expectations of the tests are met.
* The documented behaviour of the C library and the operating system (`strtod`, `snprintf`, `open`,
  `read`, `write`, `fstat`), "C" locale. `strtod` and `snprintf` enter as the parameter `NumOps`; of the
  conversion only `NegLaw` is assumed (negating the result is converting the negated decimal).
* IEEE 754 arithmetic on `float` as in `Model/Binary32`. `Lemmas/Binary32` and `Lemmas/Ieee32` compare it with the standard:
  rounding to nearest, the threshold of overflow, infinities and NaN, the order, and the correspondence with 32 bits.
* The documented behaviour of the processors' instructions: Intel's for SSE to SSE4.1, and the pseudocode of the Arm Architecture Reference
  Manual for AArch64 (`FPRecipEstimate`, `FPRSqrtEstimate`, `FPRecipStepFused`, `FPRSqrtStepFused`, `FPMulAdd`). Both estimates are functions of
  eight bits of the significand there, so that the theorems about NEON hold on all processors with this table.

### Modelled code

| Model | Code | Used by |
|---|---|---|
| `Model/Text` | TSText.cpp: `ValidateUnicodeChar` 21-68, `ReadUnicodeChar` 70-122, `WriteUnicodeChar` 124-157, `GetUnicodeCharByteCount` 159-182, comparison 646ff; C4Json.cpp: whitespace, `\u` escapes | C05-C08, C40, C45, C46 |
| `Model/Number` | C4Json.cpp: `ReadDoubleLiteral` with the C library 805-842, `ParseSign` 992 | C01-C05, C25 |
| `Model/Binary64` | the C library functions called at C4Json.cpp:830 and 1219, for binary64 | C25, C63, C64 |
| `Model/Builtin` | C4Json.cpp: `ReadDoubleLiteral` without the C library 843-988, tables 538-600 | C53, C59 |
| `Model/Arith64` | sum, product, quotient of `double` as used by C4Json.cpp 846-983 (IEEE 754 binary64, every operation rounded, no fused operations) | C81 |
| `Model/Parser` | C4Json.cpp: `ParseValue`, `ParseAnyValue`, all `Parse` members 1012-1561, `ParseJsonRoot` 1693-1734 | C01-C16, C54, C55 |
| `Model/Stack` | C4Json.cpp: the recursive part of `Model/Parser` with a limit on nested activations of `ParseAnyValue` | C108 |
| `Model/Heap` | the same functions again with allocation, destruction and failing allocations; `Serialize` functions of C4Json.h as far as they create objects; `~StructuredData` | C51, C52, C60 |
| `Model/Map` | TSMap.cpp, TSMap.h: insertion, removal, replacement, rotations, search, iteration, index | C12, C15, C16, C35-C39 |
| `Model/Document` | C4Json.cpp/h: `Find*`, `StructuredData::Parse(buffer)` 1786-1808 | C05, C14, C15 |
| `Model/Write` | C4Json.cpp: all `Write` members, `ExpandArray` | C17-C19, C24, C28, C56 |
| `Model/WriteMem` | the functions of `Model/Write` with failing requests for memory | C109 |
| `Model/File` | C4Json.cpp: `File` (Linux) 199-491, `Parse(fileName)` 1744-1784, `Write(fileName)` 1810-1833 | C20-C24, C58 |
| `Model/Handle` | C4Json.cpp: the calls of the system made by `File` (Linux) 199-308, 352-476, `Parse(fileName)` 1743-1784, `Write(fileName)` 1810-1831, with the descriptor | C106 |
| `Model/Windows` | C4Json.cpp: `WCharBuffer` 106-180; `File` (Windows) 224-253, 310-328, 355-383, 425-448 | C99-C105 |
| `Model/Serial` | C4Json.h: `Validate`, `Serialize`, `Deserialize` families 625-1600 | C26-C34, C57 |
| `Model/Strings` | TSString.h: `String<n>` 161-392; TSText.cpp: `CopyText` 609-644, `IntegerToString` 1166-1256; C4Json.cpp: `StatusToString`, `ParseResultToString` | C44, C48-C50 |
| `Model/DynString` | TSString.h 395-536, TSString.cpp: `String<0>`, escape encoding | C42, C43 |
| `Model/Wide` | TSText.cpp: counting functions 184-329, UTF-16 conversions 331-475; TSString.cpp: `String(const uint16 *)` 159-187 | C47, C61, C62 |
| `Model/TextTools` | TSText.cpp: `Hash`, `FindChar`, `FindUnquotedChar`, `CountChars` 488-607, comparisons with limits and without case 667-938, numbered comparisons 940-1068, `FindText`, `FindTextCaseless` 1070-1164, paths 1451-1486, `ReadInteger`, `ReadFloat`, `ReadString`, `ReadType` 1488-1685; TSString.cpp: hexadecimal strings and type codes 858-975 | C65-C78 |
| `Model/FloatText` | TSText.cpp: `FloatToString` 1258-1449 with `Log` and `Exp` as parameters; TSString.h 202-205, 262-266, 698-701; TSString.cpp 210-215, 431-436; C4Json.cpp 1225 | C79, C80, C98 |
| `Model/Links` | TSMap.h, TSMap.cpp: the same map with its pointers and owners, several maps over one store, purging, reservations | C82-C86 |
| `Model/Basic` | TSBasic.h: integer functions 30-166 | C87-C90 |
| `Model/Binary32` | sum, difference, product, quotient and comparison of `float`, conversions from and to `int32` (IEEE 754 binary32, every operation rounded) | C91-C98, C110 |
| `Model/Trig` | TSMath.cpp 81-477: sine, cosine, tangent, arctangents and square roots for SSE and without SIMD | C111-C119 |
| `Model/MathConst` | TSMath.cpp 25-78: constants | C120 |
| `Model/Simd`, `Model/SimdInt` | TSSimd.h 295-2508: vectors of floats and integers (SSE without SSE4; `VecConvertInt32` also for NEON) | C121-C130 |
| `Model/Keys` | TSString.h 539-683: `ConstCharKey`, `StringKey`, `FileNameKey` as keys of maps | C131, C132 |
| `Model/StringMem` | TSString.cpp 150-855, TSString.h: who owns which block of memory; C4Json.h 753-776 for strings | C133, C134 |
| `Model/Parser32` | the functions of `Model/Text` and `Model/Parser` that `Parse` uses, with `int32` lengths, capacities and line numbers | C135 |
| `Model/Write32` | the functions of `Model/Write`, with `int32` lengths and capacities | C136 |
| `Model/ParserCost` | the functions of `Model/Parser`, with a count of elementary steps | C138 |
| `Model/AppendCost` | histories of appends to arrays and strings, with a count of moved and copied elements | C140 |
| `Model/MathFns` | TSMath.h: functions of floats 34-448 with the scalar SSE functions of TSSimd.h, and their forms without SIMD; TSMath.cpp: `Exp`, `Log`, `Pow` | C91-C98 |
| `Model/Array` | TSArray.h: `Array<T, n>` and `Array<T, 0>` | C41 |
| `Model/ParserBuiltin` | the parser of the configuration with the built-in number reader, generic in the reader | C143 - C145 |
| `Spec/Syntax` | JSON grammar with arbitrary number tokens; signed literals with underscores | C143 - C145 |
| `Model/StaticHash` | `StaticHash` with signed and unsigned characters | C146 |
| `Model/StringNum` | strings from and with unsigned and 64-bit numbers | C147 |
| `Model/Narrow` | conversion of a double to a float | C148-C150 |
| `Model/SimdNeon` | TSSimd.h 295-2508: the branches for NEON (AArch64), with the tables of `FRECPE` and `FRSQRTE` | C152-C157 |
| `Model/SimdSse4` | TSSimd.h 493-1832: the branches for SSE4 | C153, C158, C159 |
| `Model/WriteCost` | the `Write` functions once more, with a count of steps and the capacity of the indentation | C160 |
| `Model/MapCost` | the loops of TSMap once more, with a count of steps; RemoveSubtree and DeleteSubtree with the depth of the recursion | C161-C163 |
| `Model/HeapReuse` | the value objects in calls of `Serialize` on values inside a document | C167 |
| `Spec/Evolve` | (specification only) types in two versions, the data of one seen from the other | C168, C169 |
| `Spec/Reload` | (specification only) sorted maps; names that stay different when converted to `std::string` | C170 |
| `Model/SerialMem` | `Deserialize` with requests for memory that may fail, and the map elements alive; a constructor, copy or assignment is one request, whether it asks once, several times or never; that `reserve` and the like are one request and that the standard containers leave nothing behind is assumed | C171 |
| `Spec/Workflow` | (specification only) data that can be stored as they are, with binary64 numbers; what it means that data are saved and loaded | C172 |
| `Spec/Layers` | (specification only) the shape of a document, one document laid over another | C173 |
| `Spec/Kept`, `Spec/Meaning` | (specification only) data with emptied maps; texts that mean the same | C174, C175 |
| `Spec/Vectors` | (specification only) what comes back of data with `std::vector`s and NULs | C176 |
| `Model/SerialCost` | C4Json.h 643-661, 745-1295, 1382-1424, 1610-1613: `Validate` with its number of steps | C177 |
| `Spec/Filed` | specification: what a file gives back of data with vectors, maps and NULs | C178 |
| `Spec/Shape` | specification: the shape of a document, documents with tame texts | C186 |
| `Lemmas/NotFinite` | a small automaton over the bytes of a text, used in proofs only: outside of strings it stops at `N` and at an `n` without a following `u` | C179, C180 |
| `Spec/Numbers` | specification: the numbers of data that get into a file | C181 |

### Not modelled

The C4-Engine branch of `File`; compile-time overload resolution; threads (the library has none); the size of stack frames.

## 4. Properties

One entry per property: what is modelled, how it is proved, and whether the code agrees.
"Violated" means that the statement is false for the code: the negation is proved with a concrete
witness (`..._violated`) and the true part is proved with suffix `_partial`. The statements quantify over
all inputs; nothing is proved by enumeration up to a bound.

### Parsing (`Props/Parser.lean`, `Props/Document.lean`)

* **C01, C02** (proved) parser as a fuelled function with outcomes `ub` and `fuel`; by induction on fuel
  neither occurs on a terminated buffer, and fuel `3 * length + 3` suffices. Stack depth: C108.
* **C03, C04** (violated) RFC 8259 grammar and the exact dialect of the parser as inductive relations. The
  parser is proved equivalent to the dialect, the dialect is compared with the RFC.
* **C05** (proved) `Denotes`: walking the objects along any path gives what the abstract value has there. The
  grammar is unambiguous up to this (`C05_unambiguous`).
* **C06, C07** (violated by surrogates) token decoding compared with an independent decoder.
* **C08** (proved) measuring and writing pass are separate functions; equality by induction.
* **C09** (violated only for one-byte documents) texts with respaced structure.
* **C10** (proved) from determinism of the parser and the shape of bracketed values.
* **C11** (violated) `C11_prefix_decides_partial`: the result depends on the bytes before the first NUL only.
* **C12, C15, C16** (proved) objects are AVL trees filled by the insertion model; lookups through the
  refinement of `Map` to finite maps.
* **C13** (violated for leading whitespace), **C54** (violated for whitespace after an opening quote): the reported
  position; both with the exact correct part.
* **C14** (violated) after `kExpectedEndOfFile` the root is set, and buffer checks leave the old one.
* **C55** (violated) exact set of statuses that `Parse` returns.
* **C108** (violated, `Props/Stack.lean`) a copy of the recursive functions that has undefined behaviour when no activation is
  left; related to the parser by induction on fuel (`Lim`: same outcome, or overflow). The parser goes forward only, so the
  brackets still to come bound the levels still needed. The exact number for accepted texts follows the derivation in the
  grammar. Destructors and `Write` recurse over the same structure; `C108_write` gives the depth for the latter.

### Ownership (`Props/Heap.lean`)

* **C51** (violated) heap of addresses, never reused; every allocation may fail. Destroying a dead object is
  `ub`. Accounting invariant `Grew`: what is alive is what was alive, what is reachable, and what was lost.
  For accepted texts: leak-free if and only if no object repeats a name.
* **C52** (violated) histories of calls on a `StructuredData`; `use` stands for any reading call. Not modelled: the
  contents of the documents beyond ownership (these are C05, C27).
* **C60** (violated) simulation between the parser with failing allocations and the plain one.

### Writing and files (`Props/Write.lean`, `Props/Document.lean`, `Props/Failure.lean`)

* **C17, C18** (violated: no escaping) writer as a function to chunks; output related to the RFC grammar; round trip by
  composition with completeness of the parser.
* **C19, C56** (proved) order of members; the statuses of `Write`.
* **C20 - C24, C58** file as bytes with an offset; `read`/`write` outcomes come from an arbitrary schedule. C22 and C58
  proved; C20 (no truncation), C21 (status ignored), C23 (short reads), C24 (unreadable output) violated.
* **C106** (proved, `Props/Handle.lean`) the system calls as a list of events with descriptors; `follow` is an automaton that
  accepts the orderly ones. `C106_same`: dropping the events gives `Model/File`. `C106_not_open`: what the
  member functions answer while no file is open. Not modelled: a failing `close`, copies of `File` objects.
* **C107** (violated, `Props/Stable.lean`) documents that read the same are written the same (induction over the document),
  and C18. For texts of doubles: a text without backslashes has only strings that are written back as they are.
* **C109** (violated, `Props/WriteMem.lean`) the writer with the capacity of the array of indentation characters and an oracle
  for requests; simulation with `Model/Write`.

### Windows (`Props/Windows.lean`)

The system calls are the same kind of schedule as on Linux; the number of bytes asked for is cut to 32 bits.

* **C99, C100** (violated) induction on the calls: what has been transferred lies in order at its place; success means all of
  it. Endless loops are proved as running out of every amount of fuel.
* **C101** (proved) `CREATE_ALWAYS` empties the file; otherwise as C20.
* **C102** (violated on both systems) the model of `Write` with the content of the file before and after. `C102_violated_reachable`
  gets the incomplete object from `Serialize` for a type with a named field and a map that is serialized in place.
* **C103** (proved) composition of C42 (construction of the `String`) and C47 (conversions); the block has exactly the units
  counted. `SetStringLength` on a new string gives room for the conversion back.
* **C104** (violated) the two constructors that are not used by the library; loops over the block.
* **C105** (violated) composition of C99, C101 and C18. A failing read gives `KFileReadError` and keeps the document
  (`C105_read_error`).

### Serialization (`Props/Serial.lean`, `Props/Failure.lean`)

* **C26, C30, C33** (proved) for a universe of data types (`Ty`) with generic Validate/Deserialize/Serialize.
* **C27 - C29, C31, C32, C34, C57** (violated), each with a witness and the exact true part.

### Containers, strings and text (`Props/Map`, `Props/Array`, `Props/Strings`, `Props/DynString`, `Props/Text`, `Props/Wide`)

* **C35 - C37, C39** (proved), **C38** (violated at the root) AVL model refined to finite maps; AVL height bound.
* **C40** (proved) comparison loops against the lexicographic order.
* **C41** (violated) raw and live slots; histories; own-element arguments; failing allocation.
* **C42, C43** (violated) blocks with sizes separate from the sizes the object believes in; arguments may point into the
  string itself (`Src`).
* **C44** (violated) `String<n>` on a block of n + 1 bytes.
* **C45** (proved), **C46** (violated by surrogates) UTF-8.
* **C47** (proved) both conversions against a specification of UTF-16 (RFC 2781), also for malformed texts; the length functions
  are exact; `String(const uint16 *)`.
* **C61** (violated) to UTF-8 the longest fitting prefix is written; to UTF-16 a pair is written when one unit is left.
* **C62** (violated) counting is right on valid texts; on others the terminator is stepped over.
* **C48** (violated: smallest integer, large unsigned), **C49, C50** (violated) messages.

### Linked maps (`Props/Links.lean`)

`Model/Map` treats a map as a tree; `Model/Links` has the objects with their pointers. A history is checked against a
world (`Spec/Ownership.lean`): which objects exist, with which key and owner; it knows nothing of trees. The proof is a
refinement: `Zip h m p t` says that the objects of map `m` in store `h` form the tree `plug p t` of `Model/Map` (parent
pointers, balances and owners included, no sharing), each operation takes it to the result of the tree model and leaves
all other objects alone (`Same`); `Good` says this for all maps at once, and that objects without owner have null links.

* **C82, C83, C85** (proved) from `Good` and the facts about the trees (C35-C39).
* **C84** (violated) by a reservation that is used after another insertion; equal to `InsertMapElement` if used at once.
* **C86** (violated) the pointer form of C38: use after free. Proved when no root is replaced.

### Integer functions (`Props/Basic.lean`)

Signed integers are bit vectors; an operation whose result does not fit is undefined behaviour.

* **C87, C88, C90** (proved) from the meaning of the mask `x >> 31` and of the number of leading zeros.
* **C89** (violated) by `Exchange(x, x)`; proved for two different variables.

### Functions of floats (`Props/Floats.lean`)

Floats are a sign, a significand and an exponent; a sum is the exact sum rounded to nearest, ties to even. Values are
integers in units of 2^-149 (`Spec/Float`).

* **C91** (proved) adding and subtracting 2^23 (with either sign) gives an integer at most 1/2 away; the comparison
  with the argument then corrects by one.
* **C92, C93** (violated from 2^23 on) the same without the case distinction for large numbers.
* **C94** (violated by tiny negative numbers) the difference is exact for nonnegative numbers.
* **C95** (proved) cases on the comparison.

### Exponential, logarithm, and printing with them (`Props/ExpLog.lean`, `Props/PrintedFloat.lean`)

The value of a float as a real number is `real` (`Spec/FloatReal`); `decReal` is the one of a decimal. The theorems compare with
`Real.exp` and `Real.log` of Mathlib. `Approx x r d` says that the float `x` is finite and within `d` of the real number `r`; there
is one lemma for each operation (error of the arguments, plus half a unit of rounding, `2^-24` of the result or `2^-150`), and the
bounds of the polynomials are computed from these lemmas step by step.

* **C96** (violated from 90 on) the argument is split in an integer and a fraction; polynomial of the fraction (Taylor remainder
  from Mathlib), table entry within one unit of the power of e (powers of rational bounds of e, checked for all 178 entries).
* **C97** (violated by subnormals, infinity, NaN) series of `log` in `(1 - x)/(1 + x)`, remainder from Mathlib; exponent times `ln_2`.
* **C98** (violated) the exponent found is right up to `2.4e-5` of the logarithm, so the quotient is from 0.9999 to 10.001;
  its error is that of `Exp`; the digits are those of C79. Missing in the partial theorems: from 1e-4 to 1 only the absolute error is
  bounded (the relative one is larger), and near 1e-37 it depends on rounding whether the exponent is -38.
* **C110** (violated, `Props/Pow.lean`) the errors of C96 and C97 combined; the witness is computed in the kernel and compared
  with Bernoulli's inequality.
* **C111** (violated, `Props/Trig.lean`) the 256 entries of the table are compared with the sines and cosines by a rotation in
  integer arithmetic (`Lemmas/TrigTable`); the reduction of the argument is exact after the first product, since the integral part is
  exact; the polynomials are compared with Taylor's bounds (`Lemmas/TrigReal`).
* **C112** (violated, `Props/Trig.lean`) the same with the coefficients in order; the conversion to `int32` is undefined from 2^31 on.
* **C113** (violated, `Props/Trig.lean`) the quotient of both.
* **C114** and **C115** (violated, `Props/Sqrt.lean`) the instruction `rsqrtss` is a function with a relative error of at most
  1.5 * 2^-12 on normal numbers (`Rsqrt`), as its documentation says; the error after each step of Newton's method is
  followed with the exact identity for the iteration (`Lemmas/SqrtReal`). The first guess from the bits without SIMD is bounded for all exponents at once.
* **C116** (`Props/Arctan.lean`) each of the 65 entries of the table is compared with the arctangent in integer arithmetic, by adding up
  the differences (`Lemmas/AtanReal`); the remainder by the derivative.
* **C117** (violated, `Props/Arctan.lean`) the angle is specified by the polar coordinates (`IsAngle`), and is shown to be unique;
  overflow and underflow of the quotient are covered.
* **C118** (`Props/Arcsin.lean`) near one the complement `1 - y * y` is computed with an error of at most `(1 - |y|)^2`, since
  `1 - 2 (1 - |y|)` is a float (`Lemmas/ArcReal`); this pays for the infinite derivative.
* **C119** (violated, `Props/Arcsin.lean`) the same.
* **C120** (`Props/MathConst.lean`) different floats are at least a unit in the last place apart; the constants are within half of it of
  pi (20 digits from Mathlib), of roots and of logarithms.
* **C121** to **C123** (`Props/Simd.lean`, `Props/SimdReal.lean`) a vector is a function from four indices to 32-bit words; the instructions
  are modelled as documented. That the four operations give nearest floats is proved from the definition of rounding
  (`Lemmas/RoundNearest.lean`: multiples of a unit are at least a unit apart, and floats of greater magnitude are multiples).
* **C124** (violated, `Props/SimdReal.lean`) SSE subtracts from zero, so the negative of +0 is +0; for other floats `0 - x` is exact.
* **C125** to **C127** (`Props/SimdReal.lean`) from the error of one operation by linear arithmetic; exact cancellation of the cross product
  from the commutativity of multiplication.
* **C128** (violated, `Props/SimdReal.lean`) as C114, with the instruction `rsqrtps`, which takes subnormal numbers for zero: the root becomes
  minus infinity.
* **C129** (`Props/SimdInt.lean`) a register is a function from 16 indices to bytes, from which words are made.
* **C130** (violated, `Props/SimdInt.lean`) SSE rounds to the nearest integer, NEON drops the fraction.
* **C131** (violated, `Props/Keys.lean`) from the theorems on `CompareText` and `CompareNumberedText*` (C40, C70, C71); for file names
  the comparison is that of the sequences of parts, if the numbers determine their digits.
* **C132** (violated, `Props/Keys.lean`) an order on texts up to case is not a strict total order on the texts, so the theorems on maps
  do not apply; `Lemmas/MapKeys.lean` shows that the tree operations commute with a change of the keys, here to capitals.
* **C133** (`Props/StringMem.lean`) several strings share a heap of numbered blocks; accesses to and deletions of blocks that are not live
  are undefined. The invariant (every block has one owner) is proved for each operation from the state in which one string has
  given up its block. `Props/StringSizes.lean`: the lengths follow a specification without memory, and every text fits into its block.
* **C134** (violated, `Props/StringMem.lean`) each operation comes with the answer to its request for memory; the same invariant, without the sizes,
  survives failing requests unless `Resize` has deleted the block.
* **C135** (violated, `Props/Size.lean`) the parser once more with every addition of `int32` checked and the sizes of allocations
  modulo 2^32; `Lemmas/Parser32.lean` shows by induction on the fuel that it equals the parser of `Model/Parser.lean`, because every
  length, capacity and line number is bounded by the bytes that were read.
* **C136** (violated, `Props/Size.lean`) the same for `Write`, where the indentation is at most depth times length.
* **C137** (proved, `Props/Faults.lean`) `Spec/Faults.lean` describes the texts with a first fault of each kind by inductive relations, in
  terms of the tokens that precede it and of the byte that is found; `Lemmas/Faults.lean` shows by induction on the fuel that every failure
  of the parser is such a fault, and by induction on the fault that the parser reports it. So each text is either in the dialect or has a
  fault, and its kind and position are determined.
* **C138** (proved, `Props/Cost.lean`) `Model/ParserCost.lean` repeats the parser in a monad that counts steps. `Lemmas/ParserCost.lean` shows
  for each function at once that it has the result of the function without count and that the steps are bounded by the bytes consumed (and,
  for members, by the height of the tree of names times the bytes); the moves of array elements are paid by the potential
  `3 count - 2 reserved`. The cost of an allocation and of the conversion of a number (one call of a constant number of floating-point
  operations) counts as a constant.
* **C139** (partial: violated, `Props/Cost.lean`) `C139_explosion` gives for each `n` a text of `15 n + 5` bytes of which `Write` makes at
  least `2^n` bytes; `C139_size_partial` bounds the output if no object has a repeated name.
* **C140** (proved, `Props/Append.lean`) Induction over the sequence with the potentials `3 count - 2 reserved` and
  `3 logical - 2 physical`.
* **C141** (proved, `Props/Tables.lean`) The bounds `271828182845904523534 / 10^20` and `...537 / 10^20` of e (Mathlib) and bounds of the
  arctangents by their series up to the ninth power are accurate enough to decide, by integer arithmetic in the kernel, that each entry is
  within half a unit in the last place; `nearest_val` concludes that no other float is nearer. At these arguments the rest of the functions
  is exact.
* **C142** (partial: violated, `Props/Tables.lean`) The same comparison with the multiples of the angle in `Lemmas/TrigTable.lean` (error below
  4e-19) decides each entry; for the 160 others a neighbour is nearer.
* **C143** (proved, `Props/ParserBuiltin.lean`) The parser is generic in the number reader; `ReaderOk` says what is required of one, `readerOk` that
  `ReadDouble` with the treatment of signs has it, `parseRoot_system` that `Model/Parser` is the instance for the C library. Totality and
  completeness are then proved once more for all readers.
* **C144** (proved, `Props/ParserBuiltin.lean`) RFC 8259 number tokens are signed literals, so the grammar is included.
* **C145** (partial: violated, `Props/WriteBuiltin.lean`) The writer's output belongs to the grammar (`Lemmas/WriteBuiltin.lean`), then C143. That the
  printed numbers are RFC 8259 numbers is C79; here it is a hypothesis.
* **C146** (partial: violated, `Props/StaticHash.lean`) The 64-bit step cut to 32 bits is the step of `Hash`, if the character is not sign-extended.
  If it is, the words differ, and the steps are injective (C66), so that a single such character never goes unnoticed.
* **C147** (partial: violated, `Props/StringNum.lean`) What is printed is the number reduced to the signed type of the same size; the rest follows from
  the theorems on signed numbers.
* **C148** (partial: violated, `Props/NumTrip.lean`) Three errors are added: that of the conversion to float (`narrow_real`), that of printing with the
  actual `Log` and `Exp` (C98) and that of reading (C81). C81 needs bounds for the length and the exponent of the text: `Lemmas/NumTrip.lean` shows
  that `FloatToString` never lengthens its block. C145 carries the result to documents.
* **C149** (partial: violated, `Props/Drift.lean`) The violation is a computation in the kernel: `tripFn` prints and reads a number with the models of
  `Log`, `Exp`, `FloatToString` and `ReadDouble`, and `trip_sound` shows that this is what saving and loading does. For the part that holds,
  multiples of 1/16 are printed exactly (C79), read with a relative error of 2e-14 (C81), and a double so near to such a number becomes the same
  float again (`narrow_stable`); `writeValue_rel` carries this to documents.
* **C150** (partial: violated, `Props/Drift.lean`) Whole numbers below 1e5 are printed as digits and `.0`, and the reader rounds nowhere for these.
* **C151** (proved, `Props/Footprint.lean`) `Value.count` and `Value.text` measure the document (names are stored twice: key and `insertionOrder`).
  Induction over the grammar, and C51 for the objects alive. The requests are counted in `Model/Heap`, which makes a request also where
  the code has capacity left; six for each byte read, and six more where parsing stops. `[[[[[[[` needs 41 for 8 bytes.
* **C152** (proved, `Props/NeonInt.lean`) component by component; saturation by cases on the range.
* **C153** (partial: violated, `Props/Neon.lean`) nine witnesses by evaluation; the equal functions component by component; negation, minima and
  maxima with the exact conditions (zeros, NaN), truncation within the range of `int32`.
* **C154, C155** (partial: violated, `Props/NeonReal.lean`, `Lemmas/NeonReal.lean`) the estimates of all 256 significands (384 for roots) are compared with the
  reciprocal (root) by evaluation, an interval per entry; the error of the correction follows by the identity of Newton's method over the reals,
  with the roundings of each instruction. For divisors below 2^-128 the estimate is infinite, whence the wrong sign.
* **C156** (proved), **C157** (partial: violated, `Props/NeonReal.lean`) from the nearest theorem of the fused operation.
* **C158** (proved), **C159** (proved, `Props/Sse4.lean`) rounding by division of naturals; sums as in C125. SSE4 is used only if `TERATHON_SSE4` is
  defined by the user.
* **C160** (proved, `Props/WriteCost.lean`) by induction over the levels: the counted function gives the same result as `Model/Write`; the number of steps
  is bounded with the capacity of the indentation as potential (moving r characters adds at least r / 2 to the capacity), and the search for a
  name by the height of the tree, at most 2 log2 of the number of members. With repeated names b is not bounded by a polynomial in n (C139).
* **C161** (proved, `Props/MapCost.lean`): the steps still to be taken from an element on are 2 times the size of its right subtree plus a sum over
  its ancestors; every call of `GetNextMapElement` lowers this number by its own steps. Single calls are bounded by the height of the tree (C36).
* **C162** (proved, same file): search and way back are bounded by the height; each round of `RemoveBranchNode` has at most one rotation.
  For a history of m calls the height is at most 1.45 log2 (m + 1) throughout. That the counted functions have the results of `Model/Map` is part
  of the statements.
* **C163** (proved, same file): by induction over the tree; the depth is the height.
* **C164** (proved, `Props/Reserial.lean`): `History` is the set of values that calls of `Parse`, `SerializeFrom` and `Serialize` can make, including
  values inside documents and documents in which such a value has changed. All objects in them have a balanced search tree, by induction
  over histories, types and field lists; `InsertMapElement` is defined on such trees.
* **C165** (partial, same file): violated. `InsertMapElement` refuses a name that is present, after the name has been listed.
  `C165_first_data_stay` gives the result for all user types with named fields and any number of calls; `C165_again_partial` proves the property for
  scalars, arrays and maps.
* **C166** (partial, same file): violated by a map serialized onto an object. If no type in the history puts a map into a value with listed
  members, the document lists only names it has, and C56 gives `kOk`.
* **C167** (partial, `Props/HeapReuse.lean`): the histories of C52 with `Serialize` calls on any value of the document. Everything alive is reachable or
  on a list of leaked objects; the list stays empty under the conditions of `C167_owned_partial`. `C167_map_forgets` shows that a map serialized
  onto an object leaks exactly the members it had, always.
* **C168** (proved, `Props/Evolve.lean`): `Ev` describes a type in two versions; `proj` drops the added fields. By induction over the two versions,
  with the loops over containers commuting with `proj`. The converse fails on purpose: a wrong type in an added field is an error for the later
  version only (an example beside the theorem).
* **C169** (proved, `Props/Evolve.lean`): upgrade by the induction of C27 carried out for two versions at once; downgrade from C27 and C168. For
  documents which nobody serialized: `C169_accepts`. Its condition includes that there is an object where an added field is looked for, since a user
  type without fields accepts any value and with one optional field only objects (an example beside the theorem).
* **C170** (proved, `Props/Reload.lean`): by induction over the type, for every status. The loops over maps find in the second run what the first
  run has put there; for that the names must be different, which holds since objects are search trees and parsed names have no NUL
  (`parsed_names`). An example shows what happens otherwise.
* **C171** (partial, `Props/SerialMem.lean`): by induction over the type with one invariant (`Fine`) that says which request failed, what the
  result is if none did, and how many map elements were made and destroyed. `C171_statement` (no element is lost) is violated, item 100 below;
  `C171_objects_partial` bounds the loss by one element, which must be the one whose name could not be copied, since all others are
  accounted for.
* **C172** (partial, `Props/Workflow.lean`): `C172_statement` allows all types; Example 6 of the repository violates it, item 101 below
  (`C172_violated` has the smallest such program, and an example runs Example 6 with its own file). The part that holds combines C27, C18 and
  C107 for binary64 numbers with a proof that data loaded from a text without backslashes can be stored (`proto_storable`). Examples 2 and 3
  are run as well.
* **C173** (proved, `Props/Layers.lean`): `Layered t v w u` says by recursion over the type what the combined document has under each name,
  without mentioning `Deserialize`; it does not fix the order of names. `Conforms` is the shape of the type. The proof compares the sorted maps
  key by key (`sorted_ext`, `map_get`). `C173_shape_needed` shows that `Validate` alone does not suffice: an optional user type with a missing
  required field passes and is read only up to that field.
* **C174** (proved, `Props/Kept.lean`): `Ty.emptied` empties the maps of a datum by recursion over the type. The proof shows that the values made
  from `d` and from the emptied `d` are written alike (`ser_emptied`: `Write` follows the insertion order, which `Serialize` of a map leaves empty),
  and that emptied data survive the file. `C174_exact` turns this into an equivalence, so for these types C28 and C172 hold exactly for data
  without map entries.
* **C175** (proved, `Props/Kept.lean`): `SameMeaning` compares abstract values path by path and ignores the order of members and repeated names.
  `des_same_deep` extends `des_same` (C28) to maps: search trees with the same names list them in the same order.
* **C176** (proved, `Props/Vectors.lean`): `Ty.fails` and `Ty.back` describe the two outcomes by recursion over the type, without values or trees.
  The proof generalises that of C27: loops stop at the first element that fails, and the status of fields is ignored. Keys cut at a NUL stay in order
  (`cText_mono`), so the tree of the object receives them at its end or drops them. `C176_survives` turns C27 into an equivalence for types with
  distinct names, `C176_silent` says when the loss is reported by neither call.
* **C177** (proved, `Props/SerialCost.lean`): `Model/SerialCost` repeats `Validate` with a count of steps in the monad of C138; searches are those of C160
  (with the comparisons of names byte by byte) and the loops over members go from position to position as in C161, with early exits. The bound is by
  induction over the type; each field looks at the value at most once, and the heights of the maps are those of C160. `C177_product` shows that a field
  list may look at the same value several times, so that the product cannot be improved to a sum. Not counted: the construction of temporary objects.
* **C178** (proved, `Props/Filed.lean`): joins C174 and C176. By induction over the type, the serialized value `w` has a shadow `w'`: `Write` does the
  same with both, `w'` can be read again, and `Deserialize` of `w'` gives `fileBack`. The shadow of a map and of a vector is the empty object. The
  file is then that of `w'`, and the parsed document equals `w'` up to the order of members. `C178_memory` relates it to C176; the first example has
  data that is refused without a file and accepted from the file.
* **C179** (proved, `Props/NotFinite.lean`): the statement uses `Emits` and `Accepts` only. The proof runs a small automaton over the written text. It
  passes over every text of the dialect (`quiet_text`, by induction over the grammar) and stops at `inf` and `nan` outside of strings (`noticed_val`).
  The texts are restricted as in C18, since a string with a quotation mark could swallow the word.
* **C180** (proved, `Props/TooLarge.lean`): as C179, with the text of `FloatToString` and the built-in reader. The bound `2^128 - 2^103` is the exact
  one of the conversion to `float` (`round_overflow`). The statement is in terms of the exact rational value of the double.
* **C181** (proved, `Props/Numbers.lean`): C179 and C180 for user data. As in C178 the serialized value has a shadow that is written alike; by induction
  over the type, the shadow has a number of a given set exactly if the data has one at a place that gets into the file (`Ty.HasNum`).
* **C182** (violated, `Props/Forged.lean`): `C182_forged` builds the text `p` from `s`, the name of the second field and the text that `d'` is written
  as. The file of `p` and `d` is then, by the grammar, the text of an object with four members: `s`, `d'`, an empty text with an empty name, and `d`
  under a name that is taken. That the file is accepted follows from C03's grammar, what the second member gives from C178. `C182_violated` is the
  negation of `C182_statement`; `C182_partial` is C178 for texts that are readable. `C182_quotes_partial` is the statement for all texts without
  quotation marks, with backslashes and control characters too: such a text between its quotation marks is one token of the grammar, or the file
  is rejected (`Lemmas/NoQuote.lean`: a token that goes on past the quotation mark would contain the line break that is written after it). So
  quotation marks are exactly what a forgery needs.
* **C183** (violated, `Props/Repeated.lean`): `same n t k` are k fields of one name and type. By induction over k, the fields after the first one leave the
  members as they are and list the name again (`same_kept`), and each field is loaded from the one member there is (`same_loaded`). `C183_kinds` is the case
  of two kinds. `C183_partial` is C178.
* **C184** (proved, `Props/Again.lean`): by induction over the type, the values serialized from data and from what comes back of it are written alike
  (`ser_again`). `C184_exact` is this and C178: equal files are loaded as equal data.
* **C185** (violated, `Props/Elements.lean`, `Lemmas/Counted.lean`): two counts over a text decide it. A comma followed by a line break stands between
  any two elements that were written, and cannot be inside a token of a text; so the document that is read has at least as many elements
  (`C185_fewer`). Each text that is read needs two quotation marks, so it has at most as many if the texts have none (`C185_partial`). `C185_forged` joins
  the texts by `","`; `C185_violated` is the negation of `C185_statement`. For texts without quotation marks `C185_tokens_partial` is an equivalence: the
  file is accepted if and only if each text is a token by itself, and then the elements are what the tokens stand for (`elems_readAs`: the elements of
  the grammar and the lines that were written are matched one by one).
* **C186** (violated, `Props/Shape.lean`, `Spec/Shape.lean`, `Lemmas/Shape.lean`): `SameShape` compares two values and ignores texts and numbers. The
  writer gives `J.layout` (C19). `fits_layout` is an induction over the document: a value of the grammar that begins where a written row begins is exactly
  that row, if a line break follows, perhaps after a comma. So the second reading finds the same rows. Printed doubles are numbers, or `inf` and `-inf`, which
  no value begins with (`printed_isNumber`). Names need no escapes in `C186_partial`, as otherwise the name itself would be another one when it is read
  again. `C186_violated` is the negation; `C186_names` shows that such names do break the statement.
* **C187** (violated, `Props/Resave.lean`): `Trips n v v'` is a chain of `n` times saving and loading. By `C185_tokens_partial` an array of one text of
  2k backslashes is loaded as one of k backslashes, and one of a single backslash is rejected, so 2^n backslashes last n times (`C187_breaks`).
  `C187_partial` uses C18 and that readable documents stay readable (`readable_same`). `C187_doubles_partial` is the same for binary64. `C187_shrinks`: an array of texts without
  quotation marks stays the same or its texts get shorter, as each escape is longer than what it stands for.

### Built-in number reader (`Props/Builtin.lean`)

* **C53** (violated: underscores) table accesses are checked; exact grammar.
* **C59** (violated) exact rational arithmetic; rounding is the subject of C81.
* **C81** (violated, `Props/Reader64.lean`) the reader with the arithmetic of binary64. A rounded result and the exact one differ
  by at most `2^-53` of either, so the errors are factors `(1 + 2^-53)^(±k)` (`Spec.Roundings`) that multiply under product and
  quotient; all numbers are nonnegative, so a sum has the larger of both errors. Overflow and underflow are excluded by the
  hypotheses on lengths and magnitude. `C81_overflow`: a 1 followed by 320 zeros gives infinity. `C81_exact_partial` is the case where every operation but the last is exact.

### Doubles (`Props/Binary64.lean`)

A double is a sign, a significand below 2^53 and an exponent; `ofBits` decodes the 64 bits. `conv` rounds an exact decimal,
`fmt` is `%.17g` with the cut to 31 characters made by the buffer.

* **C25** (violated by the ten one-digit documents) seventeen digits determine the double: the printed value is within half a
  unit of the seventeenth digit, and `round_close` shows that everything that near is rounded back. Proved for every finite
  double, in terms of bits, and for arrays; with it C17 and C18 need no assumption on numbers but finiteness.
* **C63** (proved) length of the printed text.
* **C64** (violated by `0e5`) reading gives the nearest double; the specification compares distances to all doubles.

### Text tools (`Props/TextTools.lean`)

Texts are lists of bytes as for the parser; `Holds t s` says that the C string at `t` has contents `s`, `Within m t s` that this
is what is seen of it within `m` bytes. Output buffers are blocks whose bytes are all given, so "writes nothing else" is part of
the equations.

* **C65, C67, C68** (proved) positions are specified as least ones with a property (`Least`); quoting by an inductive relation.
* **C66** (proved) each step of the hash is injective in the state and in the byte.
* **C69** (violated), **C70** (proved) caseless comparison is specified by `capital`.
* **C71** (violated) texts are split in parts (numbers and characters) by the relation `Parts`; the order is lexicographic.
* **C72** (proved), **C73, C74, C76** (violated) readers; grammar of RFC 8259 reused for numbers.
* **C75, C77, C78** (proved) type codes, hexadecimal digits, paths.

### Printed floats (`Props/FloatText.lean`)

* **C79** (violated) floats are bit patterns; the value is `units b / 2^149` (`Spec/Binary32.lean`). `Log` and `Exp` are a
  parameter `Elem`, so every theorem holds for all their behaviours; only that `Exp` is zero for arguments below -87 is built in.
  The error bound is by the invariant of the digit loop (`m * 10^k = D * 2^23 + r`) and the effect of the removal of nines and
  zeros. Not proved: how accurate the quotient is below 1e-4 and from 1e5 on (needs an error analysis of `Log` and `Exp`).
* **C80** (violated) memory safety and frame of all stores for all limits; `C80_exponent_length` shows the wrong result for every
  float that is printed with an exponent.

## 5. Disagreements between code and properties

Found while proving; each has a theorem with a concrete witness unless marked (observed).

Parser
1. Valid texts rejected: `0e1`, `-0E5`, strings with DEL, `\u0000`, one-byte documents (C03, C09).
2. Invalid texts accepted: `+5`, `- 5`, `--5` (read as 5), `.5`, `5.`, `1.2.3` (read as 1.2), `1-2` (read as 1), `1e`, surrogates in UTF-8 (C04, C07).
3. A surrogate pair of escapes is decoded to two three-byte surrogates instead of one character (C06).
4. Everything after an embedded NUL is ignored (C11).
5. Error positions do not count leading whitespace; for a faulty string they lie behind whitespace that follows the quote (C13, C54).
6. `kExpectedEndOfFile` leaves the document in place; buffer checks leave the previous document (C14).
7. Six syntax statuses are never returned (C55).
8. The second value of a repeated name is never destroyed, and its name is listed twice in `insertionOrder` (C12, C51).
9. An element or member is leaked if the array or the name list cannot grow (C51).
10. Running out of memory in a number, boolean or null is reported as `kExpectedJsonValue` (C60).

Writer and files
11. Strings are written without escaping (C17, C18). Non-whitespace indentation is written as it is; infinities and NaN are printed as words (C17 hypothesis).
12. `Write` does not truncate an existing longer file (C20) and ignores all results of the write calls (C21).
13. A partial read makes the next one overwrite the beginning of the buffer; a file that shrinks while being read makes the loop endless (C23).
14. Documents of one byte and of more than 65534 bytes are written but cannot be read again (C24, C25). `1e999` is accepted as an infinity, which is written as `inf` and refused (C18).
15. `Write` is `noexcept` but allocates for the indentation: a failure ends the program (observed).

Serialization
16. `std::vector` is given an object as its value: serializing one fails, and in a field it is dropped silently (C27, C31).
17. Members of maps are not recorded in `insertionOrder`, so `Write` prints `{}` (C28).
18. An optional field with a member missing inside is accepted (C29).
19. Deserializing a map merges with the previous content (C32); a failing Deserialize leaves the target partly overwritten (C57).
20. Keys with an embedded NUL are cut, and may collide (C31).
21. `DeserializeTo` and `Validate` dereference a null root (C34).
22. `SerializeFrom` leaves a dangling root when its first allocation fails (C52).

Containers, strings, text
23. `ReplaceMapElement` loses the tree when the replaced node is the root (C38).
24. `Array`: arguments inside the array are read after being moved or released; a failed growth leaves `reservedCount` too large; the move constructor of `Array<T,n>` leaks after a shrink (C41).
25. `String<0>`: shortening with `SetStringLength` leaves a stale capacity; `s += s`, `b = b`, own-text arguments, `AppendString` length (C42). `EncodeEscapeSequences` reports a length one too small (C43).
26. `String<n>`: `s += s`, `SetStringLength` and the four-character constructor write outside (C44).
27. Surrogates are accepted as UTF-8 (C46).
28. `IntegerToString` of the smallest integer; unsigned numbers from 2^31 print negative (C48).
29. Status messages are shifted by one from `KFileTooLarge` on, the last status reads past the table (C49); long positions are cut (C50).
30. `ConvertStringToWideText` writes a surrogate pair when one unit is left (C61). `GetUnicodeCharCount` and `GetUnicodeCharStringByteCount` step over the terminator of a malformed text (C62).

Built-in number reader
31. Underscores are accepted between digits (C53); `0e309` is 0 times infinity; exponent parts of -309 and less give 0 (C59).

Text tools
32. `FindTextCaseless` compares the first character with regard to case: "ABC" is not found in "abc" (C69). `FindText` never finds the empty text.
33. `CompareNumberedTextLessThan` is not asymmetric with leading zeros ("1b" and "01a" are both less than the other one), and compares numbers modulo 2^32 (C71).
34. `ReadFloat` does not read a sign in an exponent: of `1e-5` it reads `1e` (C73).
35. `ReadString`: the limit counts backslashes and the closing quote, which is not consumed when the limit is reached (C74).
36. `TypeToString` prints codes of one and two characters, as made by `ReadType`, as the empty text (C76).
37. The functions with a limit decrement it before testing; the least `int32` overflows (excluded in C65, C70).
38. `FloatToString` prints at most seven decimals of a number rounded down to a multiple of 2^-23; 1/3 is printed as `0.3333332`, which is another float (C79). `NumberValue::Write` without the C library moreover narrows the `double` to `float`.
39. `mantissa << exponent` (TSText.cpp:1345) overflows from 512 on, which is undefined in C++17, the standard the library is built with (C79_undefined).
40. Where `Log` gives the exponent -38, `Exp` returns zero; the number is divided by zero and infinity is printed with shift counts outside 0..31: undefined (C79_undefined_tiny).
41. Zeros and nines are counted even if they are not consecutive: 0.000105 is printed as `0.0001`, 0.99099 as `0.991` (examples at C79).
42. If an exponent is printed, `FloatToString` returns the length of the exponent only; `String<0>(float)` then reports this length (C80). Infinities and NaN are printed as `INF`, `NAN`, which are not JSON.
43. Without the C library `0.12` is read as 0.12000000000000001 and `3e-1` as 0.30000000000000004 (C81): the digits behind the point are summed as rounded quotients, and the powers of ten in the table are rounded.

Linked maps
44. A reservation of a place in a `Map` is overtaken by other insertions; using it then loses members (C84).
45. After `InsertReplaceMapElement` has replaced the root of a map, deleting the replaced object leaves a dangling root pointer (C86).

Integer functions
46. `Exchange(x, x)` sets an integer variable to zero (C89).
47. `Pow2Floor(0)`, `Pow2Ceil(0)` and `Pow2Ceil(n)` for n > 2^31 shift by 32 bits; `Abs` and `Sgn` overflow at the least integer: undefined (C87, C90).

Functions of floats
48. `PositiveFloor`, `PositiveCeil`, `NegativeFloor`, `NegativeCeil` and the `FloorCeil` functions change integers of 2^23 and more: `PositiveFloor(8388609)` is 8388608 (C92, C93). `Floor` and `Ceil` do not.
49. `Frac` of a tiny negative number is one (C94).
50. The table of `Exp` has 180 elements but 178 initializers (TSMath.cpp:483-508): `Exp(x)` is zero from 90 on. For 2^31 - 88 and more, below -2^31, for infinities and NaN the conversion to `int32` is undefined (C96).
51. `Log` takes subnormal floats for `2^-127 * 1.m` (`Log` of the least float is -88.03 instead of -103.28), `Log` of infinity is 88.7, and `Log` of a NaN without sign bit is a number (C97).
52. Because of the errors of `Log` and `Exp`, `FloatToString` prints 123456 as `1.2345591e5` and 2^24 as `1.6777219e7` (C98).

Windows
53. `ReadFile` loops forever if the file is shorter than its reported size, as on Linux (C99); partial reads are handled, unlike on Linux.
54. `WriteFile` with 4 GiB or more never returns, because `end - p` is narrowed to a `DWORD` (C100). Not reachable from `Write`, whose strings have less than 2 GiB.
55. `Write` of a `StructuredData` without a document empties the file before it returns `kInvalidStructuredData` (C102).
56. `WCharBuffer(str, maxLength)` looks at `*str` before it compares with the end, so it reads one unit too many; `maxLength + 1` wraps (C104). Both constructors are unused.

Formatting
57. Reading and writing a text twice may give another text than once: `["\",1,\""]` becomes an array of three elements (C107).

Limits of the machine
58. A text of `[` characters overflows the stack (C108). From a file at most 65534 levels are possible.
59. `Write` is `noexcept` but allocates without catching; running out of memory terminates the program with a partly written file (C109).

Powers
60. `Pow(0, y)` and `Pow` of a negative number convert an infinity or a NaN to `int32`, which is undefined (C110).
61. `Log` just below one is a difference of numbers near 0.69, so `Pow` with a large exponent is far off: `Pow(1 - 2^-24, 2^24)` is 0.135 instead of 0.368 (C110).

Trigonometric functions
62. With SSE, `Sin`, `Cos`, `Tan` and `CosSin` subtract `b^3 (1/120 - b^2/6)` where `b^3 (1/6 - b^2/120)` is meant (TSMath.cpp:236-237, 277-278, 315-316, 358-359; the branch without SIMD is right). The error is 2.4e-6 instead of 1e-7 (C111).
63. With SSE, the sine of a large argument is unbounded: `Sin(6898179375104)` is -1.97e27, because `PositiveFloor` is wrong from 2^23 on (C111).
64. Without SIMD, the four functions convert a float to `int32` that does not fit, from 53 million on (C112).
65. `Tan` of the float nearest to pi/2 is infinite; the tangent is -22877332 (C113).
66. With SSE, `Sqrt` and `InverseSqrt` of infinity are NaN (0 times infinity in the step of Newton's method). Without SIMD they are both infinity; `InverseSqrt` should be zero (C114, C115).
67. `Sqrt` of a subnormal number is zero and `InverseSqrt` infinity (C114, C115).
68. `Arctan(NaN)`, and so `Arcsin(NaN)` and `Arctan(inf, inf)`, convert a NaN to `int32` to index the table: undefined (C116, C117, C118).
69. The polynomial of `Arctan` has `c - c^3/3 - c^5/5 + c^7/7` where the series has `+ c^5/5 - c^7/7` (TSMath.cpp:427 and 443). As c is at most 1/64, the effect is below 4e-10 (C116).
70. `Arctan(y, x)` takes `|y| <= 2^-126` for zero: `Arctan(2^-126, 0)` is 0, and below the negative half of the axis the sign is wrong (C117).
71. `Arccos(-0.0)` is -pi/2 (C119).

**Vectors**

72. `VecNegate` with SSE leaves +0 as it is; with NEON (`vnegq_f32`) it gives -0 (C124).
73. `VecSqrt` of a positive subnormal number is minus infinity, and so is `VecInverseSqrt`; `VecInverseSqrt` of zero is NaN; both of infinity are NaN (C128).
74. `VecSqrtScalar` and `VecInverseSqrtScalar` leave 3.0 in the components y, z and w, the other functions for scalars those of an argument.
75. `VecConvertInt32` rounds to the nearest integer with SSE and drops the fraction with NEON (C130).

**Keys and memory of strings**

76. `FileNameKey("1b") < FileNameKey("01a")` and the other way round; "4294967297" and "8589934593" are neither equal nor ordered (C131).
77. A map of file names that contains "1b", "01a" and "0" does not find "1b"; "8589934593" is refused if there is "4294967297" (C132).
78. If memory runs out in an assignment to a string that has a block, the pointer to the deleted block stays in the string and is deleted
    again by the destructor, also after `Deserialize` has answered `kException` (C134).
79. If memory runs out in `+=`, `SetStringLength` or `EncodeEscapeSequences`, the string keeps the new size with the old block; later text is
    written beyond its end (C134).

**Sizes**

80. A document with a string of 2^31 - 68 bytes is refused with `kException`, because the size to be allocated is negative (C135).
81. An indentation length of 2^31 or more overflows the `int32` number of elements; with smaller ones from about 1.8 * 10^9 on, the capacity
    overflows (C136).
82. For a fault in a string the position of its first character is reported, not that of the illegal character or escape; after a comma in an
    object a closing brace is reported as `kExpectedJsonValue`, any other byte as `kExpectedBeginingDoubleQuotes` (C137).
83. If a name is repeated, its first value is written for each of its entries, because `InsertAccountedMapElement` appends the name also if the
    element was refused (C4Json.cpp:1472-1477). Nested repetitions make the output exponentially large: `{"a":{"a":{"a":null,"a":0},"a":0},"a":0}`
    and so on with 40 levels, a text of less than 500 bytes, would be written as more than 2^40 bytes (C139).
84. The table of sines and cosines was computed with too little precision: 160 of the 512 entries are not nearest floats, and equal numbers have
    different entries, for example `0x3CC90AB0` for sin(pi / 128) and `0x3CC90A7E` for cos(63 pi / 128) (C142). So `Sin(x)` and `Sin(pi - x)`
    may differ by 9e-8.
85. The two configurations accept different languages: `[1_0]` and `0e1` only without the C library's conversions, `[1+2]` (read as 1, the
    rest being ignored, C04) only with them (C144). Without them a document written by `Write` comes back with other numbers: `Write` passes the
    double to a function for floats with at most 15 characters (C145).
86. `StaticHash` and `Hash` differ where `char` is signed: the template argument is sign-extended, `Hash` reads unsigned bytes. A NUL is skipped by
    the former and ends the latter (C146).
87. `String<>(4294967295U)` is `-1`, and likewise for assignment, sum and appending of unsigned numbers; 2^31 gives `-0` or undefined
    behaviour (C147).
88. Without the C library's conversions a number of a document may lose almost five percent when it is written and read again (0.000105
    becomes 0.0001), and writing numbers from 1.2e-38 to 0.9999e-37 is undefined (C148).
89. Without the C library's conversions a million is saved as `0.99999e6`: 1000000 comes back as 999990, and 100000 as 99999 (C150).
90. Without the C library's conversions numbers drift when a document is loaded and saved again and again: 104299.34 loses 1.4 in
    twenty cycles (C149).

**Processors**

91. On NEON `VecDiv` multiplies by an approximate reciprocal: 1 / 1 is 0x3F7FFFC0, and x / x is not 1 (C154).
92. On NEON a quotient by a number below 2^-128 is an infinity of the wrong sign, and 0 / x is NaN (C154).
93. On NEON roots have errors up to 1.5e-5; the root of the smallest subnormal number is minus infinity, that of infinity NaN (C155).
94. On NEON the cross product of a vector and itself need not be zero, because the difference is fused, and its fourth component is a copy of
    the second one; it is zero on SSE for finite vectors (C157).
95. The functions for scalars compute all four components on NEON (and `VecFloorScalar`, `VecCeilScalar` with SSE4), and keep the last three of
    the first argument on SSE (C153). A program that uses the other components afterwards depends on the processor.
96. `VecMin` and `VecMax` give the second argument on SSE if one is NaN, and NaN on NEON; zeros of different signs are ordered on NEON (C153).
97. `VecDot4D` adds in another order with SSE4, so that 2^24 + 1 + 1 + 1 is 2^24 on SSE and 2^24 + 2 on SSE4 (C153, C159).

**Serializing onto values that have contents**

98. `Serialize` of a user type onto an object that has the fields keeps the old data, returns `kOk` and lists the names again; `Write` prints the
    members twice (C165). The new values are leaked (C167).
99. `Serialize` of a map onto an object with members removes the members but leaves `insertionOrder`; `Write` then fails with
    `kMissingObjectElement`. The members are leaked (C167). A field list that has a named field and then a map in the same value does this to itself (C166).
100. `Deserialize(value, ObjectMap<T>&)` makes a new element inside an inner `MayThrow`, and deletes it if deserializing into it fails, but the
     assignment of its name (C4Json.h:1016) lies between the two. If that assignment throws, the outer `MayThrow` returns `kException` and the
     element is neither in the map nor deleted (`C171_violated`).
101. Example 6 (Code/Examples/Example06_std_data_structures/main.cpp) loads a `TextBox` with a `std::vector`, changes an element, and saves it.
     `SerializeFrom` and `Write` return `kOk`, but the file has `"linespec" : {}` instead of the numbers, and Example 6 cannot load it (C172).
102. A field that is an array or a map of `std::vector`s is lost without any report: saving says `kOk` because the status of fields is ignored
    (C4Json.h:701), and loading says `kOk` because the value is an empty array or object (C176).
103. A detour through a file may turn a refusal into a silent loss: data with a vector inside a map cannot be loaded back from the value it was
     serialized to (`kInvalidValueType`), but it can be loaded from the file of that value, with the map empty (C178, first example).
104. `Write` returns `kOk` for a document with an infinity or NaN, and the file is lost as a whole: `Parse` rejects the words `inf` and `nan` wherever
     they stand (C179). One NaN in an array of doubles costs all the other elements and all other members of the document.
105. Without the C library, one finite double such as 1e39 destroys a whole file: it is narrowed to an infinite `float`, written as `INF` with `kOk`, and
     `Parse` refuses the text (C180).
106. `SerializeFrom` and `Write` say `kOk` for data with a NaN in one field, and none of the other fields can be loaded again (C181). There is no
     function that checks data for this before it is saved.
107. A text that comes from outside can set all other fields of the data it is saved with, without knowing them (C182): there are no escapes in
     `StringValue::Write`, and a repeated name keeps its first value without a complaint. The file is accepted and looks like a file of the other data.
108. `SerializeFrom` does not complain of fields with the same name; all but the first one are lost (C183), and the values made for them are leaked.
109. A text in an array can bring any number of further elements into it when the array is saved and loaded (C185). Elements cannot get lost if loading succeeds.
110. A document that is read, written and read again with success can have another shape (C186). Only quotation marks in texts, or characters in names that
     need escapes, can do this.
111. Loading and saving a file again and again can fail after any number of times (C187): each time half of the backslashes of a text get lost, until the file
     is rejected.
