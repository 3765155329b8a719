{"id": "C01", "title": "Parsing a text buffer never touches memory outside it", "statement": "For every character buffer passed to StructuredData::Parse, the call reads only bytes of that buffer and writes a parsed string only inside the storage that was sized for it; in particular a buffer that passes the terminator check can be parsed without any out-of-bounds access, whatever bytes it holds.", "quantifier": "all byte buffers of any length and content", "why_tests_cant": "Memory safety is a claim over infinitely many malformed inputs; a unit test exercises a handful and an out-of-bounds read by one byte is usually silent.", "anchors": ["Code/Json4C4/C4Json.cpp: StructuredData::Parse(const Array<char>&), Detail::ParseJsonRoot, ParseAnyValue, ReadStringLiteral, ReadStringEscapeChar", "Code/Terathon/TSText.cpp: ValidateUnicodeChar"]}
{"id": "C02", "title": "Parsing always terminates", "statement": "For every character buffer, StructuredData::Parse returns after finitely many steps, with a number of nested and repeated calls bounded by the length of the text.", "quantifier": "all byte buffers", "why_tests_cant": "Non-termination cannot be observed by a finite set of tests.", "anchors": ["Code/Json4C4/C4Json.cpp: ParseAnyValue, ArrayValue::Parse, ObjectValue::Parse, ReadStringLiteral"]}
{"id": "C03", "title": "Every RFC 8259 text is accepted", "statement": "Every JSON text generated by the RFC 8259 grammar, placed in a NUL terminated buffer, is parsed with status kOk into the value it denotes.", "quantifier": "all RFC 8259 texts", "why_tests_cant": "The grammar generates infinitely many texts; the suite tries about thirty files.", "anchors": ["Code/Json4C4/C4Json.cpp: ParseJsonRoot, ParseAnyValue, ReadDoubleLiteral, ReadStringLiteral", "README.md"]}
{"id": "C04", "title": "Only RFC 8259 texts are accepted", "statement": "If StructuredData::Parse returns kOk then the text before the terminator is generated by the RFC 8259 grammar.", "quantifier": "all byte buffers", "why_tests_cant": "A rejection claim ranges over every ill-formed text.", "anchors": ["Code/Json4C4/C4Json.cpp: ParseJsonRoot, ParseSign, ReadDoubleLiteral, ReadStringLiteral, ValidateUnicodeChar"]}
{"id": "C05", "title": "The tree returned by Parse is the one the text denotes", "statement": "When Parse returns kOk, walking the returned tree (array elements by index, object members by name, string bytes, booleans, nulls, converted numbers) gives exactly the abstract value written in the text, with array order kept and each string being the item-by-item decoding of its token (pairing of surrogate escapes is C06).", "quantifier": "all accepted buffers", "why_tests_cant": "Fidelity must hold for every nesting of values, not for a few samples.", "anchors": ["Code/Json4C4/C4Json.cpp: ArrayValue::Parse, ObjectValue::Parse, ParseAnyValue"]}
{"id": "C06", "title": "String escapes are decoded as RFC 8259 prescribes", "statement": "A parsed string holds the UTF-8 encoding of the characters the string token denotes: two-character escapes, \\uXXXX escapes, and surrogate pairs of \\u escapes taken as one supplementary character.", "quantifier": "all string tokens", "why_tests_cant": "2^16 escapes, 2^20 surrogate pairs and every mixture with literal text.", "anchors": ["Code/Json4C4/C4Json.cpp: ReadEscapeChar, ReadStringEscapeChar, ReadStringLiteral", "Code/Terathon/TSText.cpp: WriteUnicodeChar"]}
{"id": "C07", "title": "Parsed strings are valid UTF-8", "statement": "Every string (value or member name) in a tree returned by Parse is well-formed UTF-8 and contains no NUL byte.", "quantifier": "all strings in all accepted buffers", "why_tests_cant": "Ranges over all byte sequences and escapes.", "anchors": ["Code/Json4C4/C4Json.cpp: ReadStringLiteral", "Code/Terathon/TSText.cpp: ValidateUnicodeChar, WriteUnicodeChar"]}
{"id": "C08", "title": "Measured and written string lengths agree", "statement": "For every string token the length computed by the measuring pass equals the number of bytes the writing pass stores, and both passes consume the same text and return the same status.", "quantifier": "all texts", "why_tests_cant": "Needs equality of two passes on every byte sequence, including multi-byte characters and every \\u escape.", "anchors": ["Code/Json4C4/C4Json.cpp: ReadStringLiteral (735), StringValue::Parse (1091)"]}
{"id": "C09", "title": "Whitespace between tokens does not matter", "statement": "Adding or removing JSON whitespace before the document, after it, or around structural characters never changes whether a text is accepted nor the value obtained.", "quantifier": "all accepted texts and all whitespace insertions at token boundaries", "why_tests_cant": "Unbounded number of insertion points and amounts.", "anchors": ["Code/Json4C4/C4Json.cpp: ComputeWhitespaceLength, ParseJsonRoot, ArrayValue::Parse, ObjectValue::Parse"]}
{"id": "C10", "title": "Truncated documents are rejected", "statement": "If a text whose root is an array or object is accepted, no proper prefix of the text ending before its closing bracket is accepted.", "quantifier": "all accepted array/object documents and all cut points", "why_tests_cant": "Every cut point (crash point of a writer) of every document.", "anchors": ["Code/Json4C4/C4Json.cpp: ArrayValue::Parse, ObjectValue::Parse, ParseJsonRoot"]}
{"id": "C11", "title": "Content after a NUL byte is not silently ignored", "statement": "If Parse returns kOk then the buffer holds no non-NUL byte after its first NUL byte.", "quantifier": "all byte buffers", "why_tests_cant": "Ranges over all binary contents.", "anchors": ["Code/Json4C4/C4Json.cpp: ParseJsonRoot (1693)"]}
{"id": "C12", "title": "Duplicate member names: first value wins, consistently", "statement": "When an object text repeats a name, lookup by that name gives the value of the first occurrence, and every other name is unaffected.", "quantifier": "all object texts, any number and position of repeats", "why_tests_cant": "All permutations of repeats.", "anchors": ["Code/Json4C4/C4Json.cpp: InsertAccountedMapElement, ObjectValue::Parse", "Code/Terathon/TSMap.h: InsertMapElement"]}
{"id": "C13", "title": "Reported line and column locate the error", "statement": "When Parse fails while reading the text, errorLine is one plus the number of newlines in the buffer before the reported position and errorColumn is one plus the number of bytes since the last of them (or since the beginning of the buffer).", "quantifier": "all rejected buffers", "why_tests_cant": "All error positions in all texts.", "anchors": ["Code/Json4C4/C4Json.cpp: ParseJsonRoot (1693-1734)", "Code/Json4C4/C4Json.h: ParseResult"]}
{"id": "C14", "title": "A failed parse leaves no document behind", "statement": "After Parse returns any status other than kOk, GetRootJsonValue() is null, so stale or partial data cannot be mistaken for the requested document.", "quantifier": "all histories of Parse calls and all buffers", "why_tests_cant": "Histories of calls times all failing inputs.", "anchors": ["Code/Json4C4/C4Json.cpp: StructuredData::Parse (1744, 1786), ParseJsonRoot", "Code/Json4C4/C4Json.h: StructuredData"]}
{"id": "C15", "title": "Typed lookup is exact", "statement": "For an object obtained from Parse, FindString/FindNumber/FindBool/FindJsonNull/FindJsonValueArray/FindJsonObjectValue(name) return data exactly when the object has a member of that name and kind, and then return that member.", "quantifier": "all objects, all names, all kinds", "why_tests_cant": "All objects and names.", "anchors": ["Code/Json4C4/C4Json.cpp: ObjectValue::Find* (1578-1654)", "Code/Json4C4/C4Json.h: Value, GetDataAsPointerTo", "Code/Terathon/TSMap.h: FindMapElement"]}
{"id": "C16", "title": "Object iteration visits each member once in byte order", "statement": "Iterating an object's members visits every distinct name exactly once in strictly increasing unsigned byte order of names, whatever the order in the text.", "quantifier": "all objects and insertion orders", "why_tests_cant": "All insertion orders.", "anchors": ["Code/Terathon/TSMap.h: Map iteration", "Code/Terathon/TSMap.cpp: GetNextElement, GetPreviousElement"]}
{"id": "C17", "title": "Write emits RFC 8259 JSON", "statement": "For every tree held by a StructuredData, the bytes emitted by Write form an RFC 8259 text whenever Write returns kOk.", "quantifier": "all trees, indentation lengths and indentation characters", "why_tests_cant": "All string contents and nesting.", "anchors": ["Code/Json4C4/C4Json.cpp: StringValue::Write, NumberValue::Write, ArrayValue::Write, ObjectValue::Write, StructuredData::Write"]}
{"id": "C18", "title": "Write then Parse gives back the same tree", "statement": "Parsing the bytes emitted by Write returns kOk and a tree equal to the one written.", "quantifier": "all trees, indentation lengths and characters", "why_tests_cant": "All trees.", "anchors": ["Code/Json4C4/C4Json.cpp: StructuredData::Write, StructuredData::Parse"]}
{"id": "C19", "title": "Write keeps members in the order of the text", "statement": "For a document obtained from Parse, Write lists the members of every object in the order in which the text listed them, one entry per entry of the text.", "quantifier": "all parsed documents", "why_tests_cant": "All documents.", "anchors": ["Code/Json4C4/C4Json.cpp: InsertAccountedMapElement, ObjectValue::Write"]}
{"id": "C20", "title": "After Write the file holds exactly the document", "statement": "After a successful Write(fileName) the file's content is exactly the emitted text, whatever the file contained before.", "quantifier": "all trees and all previous file contents", "why_tests_cant": "All previous contents.", "anchors": ["Code/Json4C4/C4Json.cpp: File::OpenFile (220-285), StructuredData::Write (1810)"]}
{"id": "C21", "title": "Write reports failure to store the document", "statement": "Write returns kOk only if every byte of the document was accepted by the operating system.", "quantifier": "all trees and all outcomes of every write call", "why_tests_cant": "All failure schedules of the operating system.", "anchors": ["Code/Json4C4/C4Json.cpp: File::operator<< (478-490), File::WriteFile (418-476), StructuredData::Write"]}
{"id": "C22", "title": "WriteFile stores all bytes under every schedule of short writes", "statement": "If WriteFile returns success, the bytes appended to the file are exactly the buffer, in order, whatever partial counts the write calls returned.", "quantifier": "all buffers and all schedules of partial writes", "why_tests_cant": "Schedules of partial writes are not controllable in tests.", "anchors": ["Code/Json4C4/C4Json.cpp: File::WriteFile (418-476)"]}
{"id": "C23", "title": "ReadFile delivers the file under every schedule of short reads", "statement": "If ReadFile returns success, the destination holds exactly the requested bytes of the file, whatever partial counts the read calls returned, and it returns for every file.", "quantifier": "all files and all schedules of partial reads", "why_tests_cant": "Schedules of partial reads are not controllable in tests.", "anchors": ["Code/Json4C4/C4Json.cpp: File::ReadFile (352-416)"]}
{"id": "C24", "title": "Files up to the limit are read, larger ones are refused, and anything written can be read back", "statement": "Parse(fileName) returns KFileTooLarge exactly for files longer than 65534 bytes and otherwise gives the result of parsing the bytes of the file; every file produced by a successful Write can be parsed again.", "quantifier": "all file contents and sizes", "why_tests_cant": "All sizes and contents.", "anchors": ["Code/Json4C4/C4Json.cpp: MAX_FILE_SIZE (97), StructuredData::Parse(fileName) (1744), Write"]}
{"id": "C25", "title": "Numbers survive Write and Parse bit for bit", "statement": "Every finite double written by Write is parsed back as the identical double (including signed zero and subnormals).", "quantifier": "all 2^64 - 2^53 finite doubles", "why_tests_cant": "2^64 values.", "anchors": ["Code/Json4C4/C4Json.cpp: NumberValue::Write (1211), ReadDoubleLiteral (805)"]}
{"id": "C26", "title": "Validate agrees with Deserialize", "statement": "For every supported data type and every value tree, Validate returns exactly the status that Deserialize would return; hence Validate = kOk guarantees that deserialization succeeds.", "quantifier": "all data types built from scalars, arrays, maps and field lists; all value trees; all prior contents of the target", "why_tests_cant": "All types and all trees.", "anchors": ["Code/Json4C4/C4Json.h: Validate/Deserialize (643-939, 941-1378), ValidateProto, DeserializeProto"]}
{"id": "C27", "title": "Serialize then Deserialize is the identity", "statement": "For every supported data type and every datum, Serialize into a fresh value returns kOk and Deserialize of that value returns kOk and the datum.", "quantifier": "all data types and all data", "why_tests_cant": "All types and data.", "anchors": ["Code/Json4C4/C4Json.h: Serialize, Deserialize, CreateValueFor (524)"]}
{"id": "C28", "title": "Save and load through a file is the identity", "statement": "SerializeFrom, Write, Parse, DeserializeTo on fresh objects all return kOk and reproduce the datum.", "quantifier": "all data types and all data", "why_tests_cant": "All types and data.", "anchors": ["Code/Json4C4/C4Json.h: SerializeFrom, DeserializeTo, Serialize(ObjectMap)", "Code/Json4C4/C4Json.cpp: ObjectValue::Write, StructuredData::Parse"]}
{"id": "C29", "title": "Optional fields: absent is fine, present must conform", "statement": "Validate and Deserialize of a field list accept an object lacking an optional field (leaving that field unchanged) and reject an object in which the optional field is present with non-conforming content.", "quantifier": "all field lists and value trees", "why_tests_cant": "All nestings of field lists.", "anchors": ["Code/Json4C4/C4Json.h: ValidateProto/DeserializeProto Optional (1382-1512), Detail::Optional"]}
{"id": "C30", "title": "Required fields are required", "statement": "Deserialize of a field list returns kOk only if the value is an object (when the list is non-empty) and every non-optional field is present; a missing required field gives kNameNotPresent, and the first failing field in declaration order determines the status.", "quantifier": "all field lists and value trees", "why_tests_cant": "All field lists and trees.", "anchors": ["Code/Json4C4/C4Json.h: Deserialize(value,name,data) (663), DeserializeProto"]}
{"id": "C31", "title": "Serialization never drops data silently", "statement": "If SerializeFrom returns kOk then every field of the datum is represented in the resulting tree.", "quantifier": "all data types and data", "why_tests_cant": "All types.", "anchors": ["Code/Json4C4/C4Json.h: Serialize(value,name,data) (683-743), CreateValueFor (524-534), Serialize(std::vector)"]}
{"id": "C32", "title": "Deserialize makes the target equal to the document", "statement": "After Deserialize returns kOk, the target does not depend on what it contained before, except for absent optional fields.", "quantifier": "all data types, value trees and prior target contents", "why_tests_cant": "All prior contents.", "anchors": ["Code/Json4C4/C4Json.h: Deserialize(ObjectMap) (941), Deserialize(Array), Deserialize(std::map)"]}
{"id": "C33", "title": "Unknown members and member order do not affect Deserialize", "statement": "Deserialize into a field list depends only on the members named by the list: objects agreeing on those names give identical status and data.", "quantifier": "all field lists and pairs of objects", "why_tests_cant": "All pairs of objects.", "anchors": ["Code/Json4C4/C4Json.h: Deserialize(value,name,data)", "Code/Terathon/TSMap.h: FindMapElement"]}
{"id": "C34", "title": "Using an empty StructuredData is an error, not undefined behaviour", "statement": "DeserializeTo, Validate and Write on a StructuredData without a document return a status and do not dereference a null pointer.", "quantifier": "all histories ending without a document, all target types", "why_tests_cant": "All histories.", "anchors": ["Code/Json4C4/C4Json.h: DeserializeTo (573), Validate (625)", "Code/Json4C4/C4Json.cpp: StructuredData::Write"]}
{"id": "C35", "title": "Map behaves as a finite map for every history", "statement": "After any history of InsertMapElement and RemoveMapElement, FindMapElement(k) returns the element inserted first with key k since its last removal, and null if there is none; InsertMapElement returns whether the key was absent.", "quantifier": "all histories, all keys", "why_tests_cant": "All interleavings of insertions and removals.", "anchors": ["Code/Terathon/TSMap.h: InsertMapElement (587), FindMapElement (753)", "Code/Terathon/TSMap.cpp: InsertLeftSubnode, InsertRightSubnode, RemoveMapElement"]}
{"id": "C36", "title": "Map stays balanced", "statement": "After any history of insertions and removals the longest search path in a map of n elements is at most 1.45 log2(n+2), and no rebalancing step dereferences a null pointer.", "quantifier": "all histories", "why_tests_cant": "Worst cases need adversarial histories.", "anchors": ["Code/Terathon/TSMap.cpp: RotateLeft, RotateRight, ZigZagLeft, ZigZagRight, InsertLeftSubnode, InsertRightSubnode, RemoveBranchNode"]}
{"id": "C37", "title": "Removing an element removes only that element", "statement": "RemoveMapElement makes exactly the given element unfindable, keeps all others and their order, and keeps the tree balanced.", "quantifier": "all maps and elements", "why_tests_cant": "All shapes of trees.", "anchors": ["Code/Terathon/TSMap.cpp: RemoveMapElement (683), RemoveBranchNode (599)"]}
{"id": "C38", "title": "InsertReplaceMapElement replaces in place", "statement": "After InsertReplaceMapElement(e), looking up e's key gives e and every other key is unaffected.", "quantifier": "all maps and elements", "why_tests_cant": "All positions of the replaced element in the tree.", "anchors": ["Code/Terathon/TSMap.h: InsertReplaceMapElement (633)", "Code/Terathon/TSMap.cpp: ReplaceMapElement (554)"]}
{"id": "C39", "title": "Index access agrees with iteration", "statement": "For every map, GetMapElementCount equals the number of elements visited by iteration and operator[](i) is the i-th of them, null outside the range; forward and backward iteration visit the same elements in opposite order.", "quantifier": "all maps, all indices", "why_tests_cant": "All shapes.", "anchors": ["Code/Terathon/TSMap.cpp: operator[] (161), GetMapElementCount (179), GetNextElement, GetPreviousElement (67-119)"]}
{"id": "C40", "title": "Name comparison is a strict total order on C strings", "statement": "CompareTextLessThan orders C strings by unsigned bytes lexicographically; it is irreflexive, transitive, total, and agrees with CompareText on equality.", "quantifier": "all pairs and triples of strings", "why_tests_cant": "All triples.", "anchors": ["Code/Terathon/TSText.cpp: CompareText (646), CompareTextLessThan (760), CompareTextLessEqual (850)"]}
{"id": "C41", "title": "Array behaves as a sequence and never writes past its storage", "statement": "For every history of appends, inserts, removals and resizes, Array holds exactly the sequence those operations describe, and element storage always lies inside the allocated block.", "quantifier": "all histories", "why_tests_cant": "All histories and growth patterns.", "anchors": ["Code/Terathon/TSArray.h: Array<type,0> SetReservedCount (788), SetArrayElementCount, AppendArrayElement (889), InsertArrayElement (905), RemoveArrayElement (946)"]}
{"id": "C42", "title": "String never writes outside its storage", "statement": "For every history of assignments, concatenations, length changes and appends on a String, all writes lie inside the current storage, GetStringLength is the length of the contents, and the contents are the ones described by the operations.", "quantifier": "all histories of String operations", "why_tests_cant": "All histories.", "anchors": ["Code/Terathon/TSString.h/.cpp: String<0> Resize (295), operator=, operator+=, SetStringLength (599), AppendString (655)"]}
{"id": "C43", "title": "Escape encoding yields a consistent string", "statement": "After EncodeEscapeSequences the string's reported length is the length of its contents and the contents denote the original text.", "quantifier": "all strings", "why_tests_cant": "All strings.", "anchors": ["Code/Terathon/TSString.cpp: EncodeEscapeSequences (744)"]}
{"id": "C44", "title": "Fixed-capacity strings truncate and stay terminated", "statement": "Assigning or concatenating any text to a String<n> stores the longest prefix of the result that fits in n bytes, NUL terminated, and never writes beyond n + 1 bytes.", "quantifier": "all texts, all capacities", "why_tests_cant": "All lengths.", "anchors": ["Code/Terathon/TSString.h: String<len>", "Code/Terathon/TSText.cpp: CopyText (609, 627)"]}
{"id": "C45", "title": "UTF-8 encode and decode are inverse", "statement": "For every code point up to 0x10FFFF, WriteUnicodeChar produces between one and four bytes, as many as GetUnicodeCharByteCount says, and ReadUnicodeChar on them returns the same code point and byte count.", "quantifier": "all 1,114,112 code points, any following bytes", "why_tests_cant": "All code points in all contexts.", "anchors": ["Code/Terathon/TSText.cpp: WriteUnicodeChar (124), ReadUnicodeChar (70), GetUnicodeCharByteCount (159)"]}
{"id": "C46", "title": "ValidateUnicodeChar accepts exactly well-formed UTF-8", "statement": "ValidateUnicodeChar returns the length of the UTF-8 character at the beginning of the text when there is a well-formed one, and zero otherwise.", "quantifier": "all byte sequences", "why_tests_cant": "2^32 sequences of four bytes.", "anchors": ["Code/Terathon/TSText.cpp: ValidateUnicodeChar (21-68)"]}
{"id": "C47", "title": "UTF-16 conversion is lossless", "statement": "Converting a valid UTF-8 text to 16-bit text and back reproduces it, and the length functions predict the number of units the conversions write.", "quantifier": "all valid UTF-8 texts", "why_tests_cant": "All texts.", "anchors": ["Code/Terathon/TSText.cpp: 331-475 GetUnicodeStringLength, ConvertWideTextToString, GetWideTextCharCount, ConvertStringToWideText"]}
{"id": "C48", "title": "Integers are printed in decimal", "statement": "IntegerToString and Integer64ToString write the decimal representation of every integer that fits in the given space.", "quantifier": "all 2^32 (2^64) integers, all buffer sizes", "why_tests_cant": "2^64 values.", "anchors": ["Code/Terathon/TSText.cpp: IntegerToString (1166), Integer64ToString (1212)"]}
{"id": "C49", "title": "Every status has its own message", "statement": "StatusToString returns, for each status, the message describing that status, and never reads outside the message table.", "quantifier": "all status values", "why_tests_cant": "The suite checks no messages; the claim is about every enumerator including ones a test can hardly provoke.", "anchors": ["Code/Json4C4/C4Json.cpp: StatusString (502-527), StatusToString (529)", "Code/Json4C4/C4Json.h: Status (131-160)"]}
{"id": "C50", "title": "The error text contains the full line and column", "statement": "ParseResultToString ends with '. Line: L, column: C' with the full decimal line and column of the result.", "quantifier": "all parse results", "why_tests_cant": "All line/column pairs.", "anchors": ["Code/Json4C4/C4Json.cpp: ParseResultToString (1843)", "Code/Terathon/TSString.h: String<24>"]}
{"id": "C51", "title": "Parsing leaks no values", "statement": "Every value allocated while parsing is, when Parse returns, either reachable from the root or destroyed.", "quantifier": "all buffers", "why_tests_cant": "All texts, including all malformed ones.", "anchors": ["Code/Json4C4/C4Json.cpp: ParseValue (1012), ArrayValue::Parse, ObjectValue::Parse, InsertAccountedMapElement (1472)"]}
{"id": "C52", "title": "StructuredData always owns a usable document", "statement": "After any history of Parse, SerializeFrom, Write and DeserializeTo calls, the root is null or the result of the last call that installed a document, and each document is destroyed exactly once, even when an allocation fails.", "quantifier": "all histories and all allocation failure points", "why_tests_cant": "All histories and failure points.", "anchors": ["Code/Json4C4/C4Json.h: StructuredData (550-622), SerializeFrom (590)", "Code/Json4C4/C4Json.cpp: StructuredData::Parse"]}
{"id": "C53", "title": "The built-in number reader stays inside its tables and matches the standard grammar", "statement": "In the configuration without the C library, ReadDoubleLiteral never indexes its power tables out of range and accepts only decimal literals.", "quantifier": "all texts", "why_tests_cant": "All exponents and digit counts.", "anchors": ["Code/Json4C4/C4Json.cpp: ReadDoubleLiteral non-system branch (843-989), minusPower10, plusPower10"]}
{"id": "C54", "title": "The reported error position is not past the error", "statement": "When Parse fails on a terminated buffer, the text before the reported position can be completed to a text that Parse accepts.", "quantifier": "all rejected buffers", "why_tests_cant": "Viability of a prefix speaks about all its extensions, for every rejected buffer.", "anchors": ["Code/Json4C4/C4Json.cpp: ParseJsonRoot (1693-1734), StringValue::Parse, ObjectValue::Parse, ArrayValue::Parse"]}
{"id": "C55", "title": "Every syntax error status is reachable", "statement": "For every status of the enumeration that describes a syntax error there is a text for which Parse returns it, and Parse returns no status outside the enumeration's syntax errors, kOk, and the two buffer checks.", "quantifier": "all buffers (exact set of returned statuses)", "why_tests_cant": "Absence of a status needs all buffers.", "anchors": ["Code/Json4C4/C4Json.h: Status (131-160)", "Code/Json4C4/C4Json.cpp: StructuredData::Parse(buffer) (1786), ParseJsonRoot (1693-1734)"]}
{"id": "C56", "title": "Write reports exactly the missing members", "statement": "If the file can be opened, Write returns kMissingObjectElement when an object that is written lists a name for which it has no member, kOk otherwise, and no other status.", "quantifier": "all value trees (consistent or not), indentations and disks", "why_tests_cant": "the inconsistency may sit at any depth and behind any number of written members; tests try a few trees", "anchors": ["Code/Json4C4/C4Json.cpp: ObjectValue::Write, ArrayValue::Write, StructuredData::Write"]}
{"id": "C57", "title": "A failing Deserialize leaves its target unchanged", "statement": "If Deserialize returns a status other than kOk, the data passed to it is what it was before the call.", "quantifier": "all data types, value trees and previous contents", "why_tests_cant": "the failure can be at any element or field of arbitrarily nested data", "anchors": ["Code/Json4C4/C4Json.h: Deserialize, Detail::DeserializeProto"]}
{"id": "C58", "title": "Failing reads are reported", "statement": "If opening the file or any read call before the end of the file fails, Parse(fileName) returns the corresponding status and leaves the document as it was.", "quantifier": "all files, all schedules of partial reads, every position of the failing call", "why_tests_cant": "failures of the disk cannot be produced at every call by tests", "anchors": ["Code/Json4C4/C4Json.cpp: StructuredData::Parse(const char*), File::ReadFile"]}
{"id": "C59", "title": "The built-in number reader yields the denoted number", "statement": "In the configuration without the C library, every unsigned RFC 8259 number that is zero or a normal number of the format is read as the number it denotes, apart from rounding.", "quantifier": "all number literals", "why_tests_cant": "All combinations of digits and exponents; the failures are in exponents nobody writes in tests.", "anchors": ["Code/Json4C4/C4Json.cpp: ReadDoubleLiteral non-system branch (843-988), minusPower10 (538), plusPower10 (558)"]}
{"id": "C60", "title": "Running out of memory is reported as such", "statement": "If memory runs out during Parse, the status is kException or what it would have been with enough memory, and a success always yields the document the text denotes.", "quantifier": "all buffers and every set of failing allocations", "why_tests_cant": "Every combination of failing allocations on every text.", "anchors": ["Code/Json4C4/C4Json.cpp: ParseValue (1012-1041), ParseAnyValue (1043-1086)", "Code/Json4C4/C4Json.h: MayThrow (173)"]}
{"id": "C61", "title": "Text conversions keep to the buffer", "statement": "ConvertWideTextToString and ConvertStringToWideText with a limit of max units, given a buffer for max units and a terminator, write only inside the buffer; what they write is the longest fitting prefix of the characters of the text, terminated.", "quantifier": "all terminated texts, valid or not, and all limits", "why_tests_cant": "All texts and limits.", "anchors": ["Code/Terathon/TSText.cpp: ConvertWideTextToString (376-425), ConvertStringToWideText (446-475)"]}
{"id": "C62", "title": "Counting characters", "statement": "GetUnicodeCharCount, GetUnicodeCharStringByteCount, GetPreviousUnicodeCharByteCount and GetNextUnicodeCharByteCount count the characters and bytes of valid UTF-8 texts and never read outside any terminated text.", "quantifier": "all terminated texts, all limits", "why_tests_cant": "All texts.", "anchors": ["Code/Terathon/TSText.cpp: 184-329"]}
{"id": "C63", "title": "The text of a number fits the buffer it is printed into", "statement": "The text that NumberValue::Write prints with %.17g, for finite numbers, infinities and NaN, has at most 24 characters, so the buffer of 32 bytes holds all of it and its terminator.", "quantifier": "all doubles", "why_tests_cant": "2^64 values; the longest texts belong to few of them.", "anchors": ["Code/Json4C4/C4Json.cpp: NumberValue::Write (1211-1232)"]}
{"id": "C64", "title": "Numbers are read as the nearest double", "statement": "Every RFC 8259 number is read as the double nearest to the number it denotes, ties to even, and as an infinity only from half a unit beyond the largest double on.", "quantifier": "all number literals", "why_tests_cant": "Unboundedly many digit strings and exponents.", "anchors": ["Code/Json4C4/C4Json.cpp: ReadDoubleLiteral (805-842), NumberValue::Parse (1164-1190)"]}
{"id": "C65", "title": "Searching for and counting characters", "statement": "FindChar returns the first position of a character in a C string or -1; with a limit it examines at most that many bytes; CountChars counts the occurrences among them. No byte after the terminator or the limit is read.", "quantifier": "all texts, characters and limits above the least int32", "why_tests_cant": "Every position, every limit and every buffer end.", "anchors": ["Code/Terathon/TSText.cpp: FindChar (508, 530), CountChars (590)"]}
{"id": "C66", "title": "Hash separates texts that differ in one byte", "statement": "Hash depends only on the contents of a C string, and two C strings of the same length that differ in exactly one byte have different hashes.", "quantifier": "all pairs of texts", "why_tests_cant": "All pairs of texts of all lengths.", "anchors": ["Code/Terathon/TSText.cpp: Hash (488)"]}
{"id": "C67", "title": "Searching outside quotes", "statement": "FindUnquotedChar returns the first position of a character (other than the quote) that is outside double quotes, where inside quotes a backslash takes away the meaning of the next character.", "quantifier": "all texts and characters", "why_tests_cant": "All nestings of quotes and backslashes.", "anchors": ["Code/Terathon/TSText.cpp: FindUnquotedChar (552)"]}
{"id": "C68", "title": "FindText finds the first occurrence", "statement": "FindText returns the least position at which a non-empty text occurs in another, or -1 if there is none; nothing is read after the terminators.", "quantifier": "all pairs of texts", "why_tests_cant": "All overlaps of repeated prefixes.", "anchors": ["Code/Terathon/TSText.cpp: FindText (1070)"]}
{"id": "C69", "title": "FindTextCaseless finds the first occurrence up to case", "statement": "FindTextCaseless returns the least position at which a non-empty text occurs when the case of ASCII letters is ignored, or -1.", "quantifier": "all pairs of texts", "why_tests_cant": "All texts in all cases.", "anchors": ["Code/Terathon/TSText.cpp: FindTextCaseless (1113)"]}
{"id": "C70", "title": "Comparisons with a limit and without case", "statement": "The comparisons with a limit compare the two texts cut to the limit, reading nothing else; the caseless ones compare the texts with capital letters; the caseless order is a total preorder whose equivalence is caseless equality.", "quantifier": "all pairs of texts and limits above the least int32", "why_tests_cant": "All pairs of texts and limits, order axioms over all triples.", "anchors": ["Code/Terathon/TSText.cpp: CompareText (667), CompareTextCaseless (693, 724), CompareTextLessThan (774), CompareTextLessThanCaseless (795, 819), CompareTextLessEqual (864), CompareTextLessEqualCaseless (885, 909)"]}
{"id": "C71", "title": "Comparison of numbered texts is an order", "statement": "CompareNumberedTextLessThan is a strict order in which numbers inside the texts are compared by value.", "quantifier": "all pairs and triples of texts", "why_tests_cant": "Order axioms over all triples; numbers of every size.", "anchors": ["Code/Terathon/TSText.cpp: CompareNumberedTextLessThan (940), CompareNumberedTextLessThanCaseless (1000)"]}
{"id": "C72", "title": "ReadInteger", "statement": "ReadInteger copies an optional minus sign and the longest run of digits after it, at most max characters, into a buffer of max + 1 bytes, terminates it, returns the count and writes nothing else.", "quantifier": "all texts, limits and buffers", "why_tests_cant": "All lengths at the boundary of the buffer.", "anchors": ["Code/Terathon/TSText.cpp: ReadInteger (1488)"]}
{"id": "C73", "title": "ReadFloat reads numbers", "statement": "ReadFloat reads every number of RFC 8259 that is followed by a character that cannot continue it, and writes nothing outside a buffer of max + 1 bytes.", "quantifier": "all numbers, texts, limits and buffers", "why_tests_cant": "All numerals; all lengths at the boundary of the buffer.", "anchors": ["Code/Terathon/TSText.cpp: ReadFloat (1518)"]}
{"id": "C74", "title": "ReadString reads words and quoted texts", "statement": "ReadString stores the first max characters of a text in double quotes without the quotes and escaping backslashes; outside quotes it stores a word that ends at a blank, a control character or two slashes; it writes nothing outside a buffer of max + 1 bytes.", "quantifier": "all texts, limits and buffers", "why_tests_cant": "All escapes, all lengths at the boundary of the buffer.", "anchors": ["Code/Terathon/TSText.cpp: ReadString (1580)", "Code/Terathon/TSText.h: documentation of ReadString"]}
{"id": "C75", "title": "Type codes from texts", "statement": "StringToType packs the first four characters of a text into 32 bits, first character highest, reading at most four bytes; TypeToString gives the characters back.", "quantifier": "all texts", "why_tests_cant": "All lengths and byte values.", "anchors": ["Code/Terathon/TSString.cpp: StringToType (924), TypeToString (955)"]}
{"id": "C76", "title": "Type codes from quoted texts", "statement": "ReadType reads a type code between apostrophes, consuming up to the closing apostrophe, and TypeToString prints the characters it was made of.", "quantifier": "all texts of one to four characters", "why_tests_cant": "All lengths, escapes and byte values.", "anchors": ["Code/Terathon/TSText.cpp: ReadType (1634)", "Code/Terathon/TSString.cpp: TypeToString (955)"]}
{"id": "C77", "title": "Hexadecimal strings", "statement": "The hexadecimal strings have 16, 8, 4 or 2 upper-case digits whose value is the number modulo the power of 16; TypeToHexCharString puts prefix, digits and characters together without truncation.", "quantifier": "all numbers", "why_tests_cant": "All 64-bit numbers.", "anchors": ["Code/Terathon/TSString.cpp: Integer64ToHexString16 (858), IntegerToHexString8 (883), IntegerToHexString4 (900), IntegerToHexString2 (913), TypeToHexCharString (966)"]}
{"id": "C78", "title": "Lengths of directory paths and resource names", "statement": "GetDirectoryPathLength is the length of the text up to and including the last slash; GetResourceNameLength is the length without the extension, which begins at the last dot of the last component.", "quantifier": "all texts", "why_tests_cant": "All paths.", "anchors": ["Code/Terathon/TSText.cpp: GetResourceNameLength (1451), GetDirectoryPathLength (1471)"]}
{"id": "C79", "title": "Numbers written without the C library", "statement": "Every finite float written by NumberValue::Write without the C library conversions (FloatToString) is written as an RFC 8259 number, and the float nearest to that number is the given one.", "quantifier": "all finite floats, any contents of the buffer", "why_tests_cant": "2^32 bit patterns; nearest among all floats.", "anchors": ["Code/Terathon/TSText.cpp: FloatToString (1258-1449)", "Code/Terathon/TSString.h: FloatToString (698)", "Code/Json4C4/C4Json.cpp: NumberValue::Write (1225)"]}
{"id": "C80", "title": "FloatToString returns the length of its text", "statement": "For every float and limit FloatToString stores a terminated text of at most max bytes, touches nothing after text[max], and returns the length of the text; the strings made from floats have that length.", "quantifier": "all floats, limits and buffers", "why_tests_cant": "All floats at all limits, memory behind the buffer.", "anchors": ["Code/Terathon/TSText.cpp: FloatToString (1258-1449)", "Code/Terathon/TSString.cpp: String<0>::String(float) (210), operator =(float) (431)"]}
{"id": "C81", "title": "Nearest double without the C library", "statement": "Without the C library conversions every unsigned RFC 8259 number is read as the double nearest to it.", "quantifier": "all RFC 8259 numbers without a sign, any following character that cannot continue the number", "why_tests_cant": "Infinitely many texts; the wrong results differ in the last bit only.", "anchors": ["Code/Json4C4/C4Json.cpp: ReadDoubleLiteral (843-988), minusPower10 (538), plusPower10 (558)"]}
{"id": "C82", "title": "An object is in the map it says it is in", "statement": "After any history of creating, inserting (also with an immediate reservation), removing, detaching and deleting objects and of emptying and purging maps, over any number of maps that share the objects, nothing undefined has happened, every call has returned what it should, GetOwningMap and Member tell the map in which the object was last put (an insertion takes it out of its previous map, a refused insertion leaves it there), and FindMapElement of a map returns the member with the key or null.", "quantifier": "all histories of allowed calls, maps, keys and strict total orders", "why_tests_cant": "Unbounded histories over linked objects; a wrong link shows only in later operations.", "anchors": ["Code/Terathon/TSMap.cpp: MapElementBase, MapBase (17-754)", "Code/Terathon/TSMap.h: Map<type>::InsertMapElement, ReserveMapElement, FindMapElement (587-775)"]}
{"id": "C83", "title": "Neighbours of a map element", "statement": "After any such history GetNextMapElement of a member returns the member of the same map with the least greater key, GetPreviousMapElement the one with the greatest smaller key, null if there is none; GetFirstMapElement and GetLastMapElement return the extreme members; an object outside of any map has no neighbours.", "quantifier": "all histories of allowed calls, maps, members", "why_tests_cant": "The answers depend on parent pointers left by all earlier rotations.", "anchors": ["Code/Terathon/TSMap.cpp: GetFirstMapElement, GetLastMapElement, GetPreviousMapElement, GetNextMapElement (33-119)", "Code/Terathon/TSMap.h: MapBase::GetFirstMapElement, GetLastMapElement (133-141)"]}
{"id": "C84", "title": "A reservation holds the place of a key", "statement": "If ReserveMapElement succeeds for a key, an object with this key can be inserted with the reservation later, as long as the key is still absent; it is then found, and so are all other members.", "quantifier": "all histories before and between the two calls", "why_tests_cant": "Depends on what happens between the two calls.", "anchors": ["Code/Terathon/TSMap.h: MapReservation (33), Map<type>::InsertMapElement(element, reservation) (685), ReserveMapElement (706)"]}
{"id": "C85", "title": "Purging deletes the members and nothing else", "statement": "PurgeMap deletes every member of the map exactly once and no other object; RemoveAllMapElements deletes nothing and leaves the members without a map; afterwards the map is empty and the other maps are unchanged.", "quantifier": "all histories of allowed calls, maps", "why_tests_cant": "Double deletion and leaks are not visible in results, and all shapes of trees are concerned.", "anchors": ["Code/Terathon/TSMap.cpp: RemoveSubtree, DeleteSubtree (121-153), RemoveAllMapElements, PurgeMap (738-754)"]}
{"id": "C86", "title": "Replacing elements is memory safe", "statement": "No history of allowed calls that includes InsertReplaceMapElement, after which the caller may delete the object that was replaced, accesses an object that does not exist.", "quantifier": "all histories of allowed calls, maps, keys", "why_tests_cant": "A read of a deleted object often goes unnoticed.", "anchors": ["Code/Terathon/TSMap.cpp: ReplaceMapElement (554-597)", "Code/Terathon/TSMap.h: InsertReplaceMapElement (633-683)"]}
{"id": "C87", "title": "Absolute value, sign, minimum and maximum", "statement": "Abs, Sgn, Min, Max, MinZero and MaxZero of signed integers give the absolute value, sign, minimum and maximum of the integers; Abs and Sgn are undefined exactly for the least integer.", "quantifier": "all widths, all integers of the width", "why_tests_cant": "The functions work by masks on bits; there are too many pairs of integers to test.", "anchors": ["Code/Terathon/TSBasic.h: Abs, Sgn, Min, Max, MinZero, MaxZero and their 64-bit forms (30-92)"]}
{"id": "C88", "title": "Cyclic counting", "statement": "IncMod and DecMod step forwards and backwards through the integers less than the modulus in a circle; OverflowZero gives its first argument if it is less than the second and zero otherwise, unless the difference does not fit, where it is undefined.", "quantifier": "all moduli, all integers in range", "why_tests_cant": "All pairs of 32-bit integers are concerned.", "anchors": ["Code/Terathon/TSBasic.h: IncMod, DecMod, OverflowZero (95-112)"]}
{"id": "C89", "title": "Exchanging variables", "statement": "Exchange exchanges the values of two integer variables and leaves all others.", "quantifier": "all widths, values, pairs of variables", "why_tests_cant": "Two references may name the same variable, which tests rarely do.", "anchors": ["Code/Terathon/TSBasic.h: Exchange (115-121)"]}
{"id": "C90", "title": "Powers of two", "statement": "IntLog2 gives the exponent of the greatest power of two not greater than its argument, Pow2Floor that power, Pow2Ceil the least power of two not less than the argument; each is defined exactly where the answer exists.", "quantifier": "all 32-bit integers", "why_tests_cant": "The edge cases are a few of four thousand million.", "anchors": ["Code/Terathon/TSBasic.h: Cntlz, IntLog2, Pow2Floor, Pow2Ceil (132-166)"]}
{"id": "C91", "title": "Floor and ceiling", "statement": "Floor gives the greatest integer not greater than a float and Ceil the least integer not less, with and without SIMD; infinities and NaN are returned unchanged.", "quantifier": "all floats", "why_tests_cant": "The functions add and subtract 2^23 and rely on rounding; the edges are at half integers and near 2^23, with either sign.", "anchors": ["Code/Terathon/TSMath.h: Floor, Ceil (294-309)", "Code/Terathon/TSSimd.h: VecFloorScalar (1180-1209), VecCeilScalar (1366-1395)"]}
{"id": "C92", "title": "Floor and ceiling of numbers of known sign", "statement": "PositiveFloor and PositiveCeil give floor and ceiling of nonnegative floats, NegativeFloor and NegativeCeil of the others.", "quantifier": "all finite floats", "why_tests_cant": "Failures are at floats of 2^23 and more, which tests seldom use.", "anchors": ["Code/Terathon/TSMath.h: PositiveFloor, NegativeFloor, PositiveCeil, NegativeCeil (317-379)"]}
{"id": "C93", "title": "Floor and ceiling together", "statement": "FloorCeil, PositiveFloorCeil and NegativeFloorCeil store the floor and the ceiling of a float.", "quantifier": "all finite floats", "why_tests_cant": "Failures are at floats of 2^23 and more.", "anchors": ["Code/Terathon/TSMath.h: FloorCeil, PositiveFloorCeil, NegativeFloorCeil (381-433)"]}
{"id": "C94", "title": "Fraction", "statement": "Frac gives the difference of a float and its floor: nonnegative, less than one.", "quantifier": "all finite floats", "why_tests_cant": "The result reaches one only for tiny negative numbers.", "anchors": ["Code/Terathon/TSMath.h: Frac, PositiveFrac, NegativeFrac (435-448)"]}
{"id": "C95", "title": "Minimum, maximum, clamping and sign of floats", "statement": "Fmin, Fmax (two to four arguments), FminZero, FmaxZero, Clamp and Saturate give one of their arguments that is extreme; with a NaN the second argument is returned; Fabs, Fnabs, Fsgn, Fnsgn, NonzeroFsgn and NonzeroFnsgn give absolute value and sign.", "quantifier": "all floats", "why_tests_cant": "Infinities, both zeros and NaN occur in any combination.", "anchors": ["Code/Terathon/TSMath.h: Fabs to Saturate (34-290)", "Code/Terathon/TSSimd.h: VecMinScalar, VecMaxScalar, VecFsgn, VecFnsgn (1709-1733)"]}
{"id": "C96", "title": "Exponential function", "statement": "Exp of a finite float is the exponential of it, with a relative error of at most one millionth and an absolute error of at most 2^-125 as far as the result is in range (up to 88); from 89 on it is infinite; the call is always defined.", "quantifier": "all finite floats", "why_tests_cant": "The error must be bounded for every one of 2^32 arguments, through rounding of a polynomial and of a table of 180 powers of e; single missing table entries show only in ranges where a test would expect overflow.", "anchors": ["Code/Terathon/TSMath.cpp: Exp (479-529)"]}
{"id": "C97", "title": "Logarithm", "statement": "Log of a positive finite float is the natural logarithm, with an error of at most 4e-7 plus 1.3e-7 of its absolute value; Log of a zero is minus infinity, Log of infinity is infinity, otherwise the result is NaN.", "quantifier": "all floats", "why_tests_cant": "The error must be bounded for all arguments; the special cases are subnormal floats, infinity and NaN.", "anchors": ["Code/Terathon/TSMath.cpp: Log (531-561)"]}
{"id": "C98", "title": "Printed floats are accurate", "statement": "Every finite float is written by FloatToString, with the actual Log and Exp, as an RFC 8259 number whose relative error is at most 2e-5.", "quantifier": "all finite floats, all contents of the buffer", "why_tests_cant": "The accuracy depends on two approximated functions and on digit-by-digit conversion; the worst cases lie at powers of ten and at the limits of the range of floats.", "anchors": ["Code/Terathon/TSText.cpp: FloatToString (1258-1449)", "Code/Terathon/TSMath.cpp: Exp, Log (479-561)"]}
{"id": "C99", "title": "Reading a file on Windows", "statement": "File::ReadFile (Windows) fills the buffer with exactly the bytes of the file under every sequence of short reads, writes nothing outside the buffer, and returns whenever every system call transfers something when there is something.", "quantifier": "all files, sizes and schedules of the system calls", "why_tests_cant": "The number of bytes a call delivers is not under the control of a test, and the branch is compiled on one system only.", "anchors": ["Code/Json4C4/C4Json.cpp: File::ReadFile (351-416), Windows branch"]}
{"id": "C100", "title": "Writing a buffer on Windows", "statement": "File::WriteFile (Windows) stores a prefix of the buffer at the offset and nothing else changes; it reports success exactly if the prefix is the whole buffer; it returns whenever every system call makes progress or fails.", "quantifier": "all buffers, files and schedules of the system calls", "why_tests_cant": "The failing sizes start at 4 GiB; schedules cannot be enumerated.", "anchors": ["Code/Json4C4/C4Json.cpp: File::WriteFile (418-476), Windows branch"]}
{"id": "C101", "title": "On Windows the file holds exactly the document", "statement": "After a successful Write(fileName) on Windows the content of the file is exactly the emitted text, whatever it was before, if no call fails.", "quantifier": "all documents, all previous contents, all schedules of partial writes", "why_tests_cant": "All previous contents and all schedules.", "anchors": ["Code/Json4C4/C4Json.cpp: File::OpenFile (220-253), StructuredData::Write (1810-1831)"]}
{"id": "C102", "title": "A failing Write leaves the file as it was", "statement": "If Write(fileName) returns a status other than kOk, the content of an existing file is unchanged, on both systems.", "quantifier": "all documents (including an absent one), all previous contents", "why_tests_cant": "Data loss shows only for pairs of previous content and error, on one of the systems.", "anchors": ["Code/Json4C4/C4Json.cpp: File::OpenFile (220-285), StructuredData::Write (1810-1831)"]}
{"id": "C103", "title": "File names on Windows", "statement": "For every file name given as a C string the wide name handed to the system is the terminated UTF-16 text of its characters (U+FFFD for bytes at which no character begins), in a block of exactly the size needed; a valid UTF-8 name converts back to itself, so different valid names give different wide names.", "quantifier": "all byte strings, whatever lies behind them and in the new blocks", "why_tests_cant": "The block has no slack: one character counted wrongly in any of infinitely many names writes outside it.", "anchors": ["Code/Json4C4/C4Json.cpp: WCharBuffer (106-180), File::OpenFile (226)"]}
{"id": "C104", "title": "WCharBuffer with a limit", "statement": "WCharBuffer(maxLength) holds maxLength + 1 zeros; WCharBuffer(str, maxLength) holds the units of str before its terminator, at most maxLength of them, and a terminator, and reads no more than maxLength units of str.", "quantifier": "all 32-bit limits and all sources", "why_tests_cant": "The limit 2^32 - 1 needs 8 GiB, and reading one unit too far is not visible in a test.", "anchors": ["Code/Json4C4/C4Json.cpp: WCharBuffer (112-137)"]}
{"id": "C105", "title": "Round trip through a file on Windows", "statement": "A document written by Write(fileName) on Windows, over any previous content, is parsed back by Parse(fileName) as the same document, under every schedule of partial transfers.", "quantifier": "all readable documents, previous contents, indentations and schedules", "why_tests_cant": "Infinitely many documents and schedules.", "anchors": ["Code/Json4C4/C4Json.cpp: File (199-476), StructuredData::Parse (1744-1784), StructuredData::Write (1810-1831)"]}
{"id": "C106", "title": "Files are closed, once, and nothing else is", "statement": "All calls of the operating system made by Parse(fileName), by Write(fileName), and by every history of calls of File member functions that ends with the destructor are in order: a file is opened before it is used, every operation is on the descriptor that was opened, files opened for reading are not written, each descriptor is closed exactly once, and in the end the table of open descriptors of the process is what it was.", "quantifier": "all histories of calls, all failures and schedules of the system calls, all initial tables of descriptors", "why_tests_cant": "A leaked or doubly closed descriptor shows up only later and elsewhere, and only on the error path taken.", "anchors": ["Code/Json4C4/C4Json.cpp: File (199-308, 352-476)", "Code/Json4C4/C4Json.cpp: StructuredData::Parse (1743-1784), StructuredData::Write (1810-1831)"]}
{"id": "C107", "title": "Formatting is stable", "statement": "If a text is parsed and written, the result is accepted, and parsing and writing it again with the same indentation gives the same bytes.", "quantifier": "all accepted texts, all indentations", "why_tests_cant": "Infinitely many texts; a difference may need a particular nesting, number or repeated name.", "anchors": ["Code/Json4C4/C4Json.cpp: StructuredData::Parse (1786-1808), Write members (1150-1690)"]}
{"id": "C108", "title": "A bounded stack suffices", "statement": "There is a number of nested calls of ParseAnyValue that is never exceeded, whatever the buffer.", "quantifier": "all buffers", "why_tests_cant": "Overflows need texts as deep as the stack is large, and the depth at which they happen depends on the machine.", "anchors": ["Code/Json4C4/C4Json.cpp: ParseAnyValue (1043-1086), ArrayValue::Parse (1357-1419), ObjectValue::Parse (1479-1561), Parse (1743-1808)"]}
{"id": "C109", "title": "Writing when memory runs out", "statement": "Whatever requests for memory fail while a document is written, StructuredData::Write returns a status.", "quantifier": "all documents, all indentations, all sets of failing requests", "why_tests_cant": "Every request of every document may be the one that fails.", "anchors": ["Code/Json4C4/C4Json.cpp: ExpandArray (603-609), ArrayValue::Write (1440-1466), ObjectValue::Write (1656-1691), StructuredData::Write (1810-1831)"]}
{"id": "C110", "title": "Pow is a power", "statement": "Pow(x, y) of a positive finite x is x to the power of y with a relative error of at most one percent whenever the result is between e^-80 and e^80; Pow(0, y) is zero for positive y; Pow is defined for all numbers.", "quantifier": "all finite floats x and y", "why_tests_cant": "There are 2^64 pairs of floats; large errors occur near one only, with large exponents.", "anchors": ["Code/Terathon/TSMath.h: Pow (467-470)", "Code/Terathon/TSMath.cpp: Exp (479-529), Log (531-559)"]}
{"id": "C111", "title": "Sin and Cos are accurate (SSE)", "statement": "Sin(x) and Cos(x) of a finite float, compiled for SSE, are finite floats that differ from the sine and cosine of x by at most 1e-6 + 2e-7 |x|; CosSin stores the same floats.", "quantifier": "all finite floats", "why_tests_cant": "There are 2^32 floats; the error depends on the place between two entries of the table, and the loss for large arguments is not seen with small ones.", "anchors": ["Code/Terathon/TSMath.cpp: trigTable (81-115), Sin (222-260), Cos (263-299), CosSin (346-384)", "Code/Terathon/TSMath.h: PositiveFloor (317-331)"]}
{"id": "C112", "title": "Sin and Cos are defined and accurate (no SIMD)", "statement": "Without SIMD, Sin, Cos and CosSin are defined for all finite floats, and their results differ from the sine and cosine of x by at most 1e-6 + 2e-7 |x|.", "quantifier": "all finite floats", "why_tests_cant": "There are 2^32 floats; the undefined conversion of large arguments may give a plausible result.", "anchors": ["Code/Terathon/TSMath.cpp: trigTable (81-115), Sin (245-260), Cos (284-299), CosSin (368-384)"]}
{"id": "C113", "title": "Tan is accurate", "statement": "Tan(x) of a finite float is a finite float that differs from the tangent by at most 3 (1e-6 + 2e-7 |x|) (1 + |tan x|) / |cos x|, if 1e-6 + 2e-7 |x| is at most half of |cos x|.", "quantifier": "all finite floats", "why_tests_cant": "The error depends on the distance to the poles of the tangent.", "anchors": ["Code/Terathon/TSMath.cpp: Tan (301-344)"]}
{"id": "C114", "title": "Sqrt is accurate", "statement": "Sqrt(x) of a nonnegative finite float is a finite float with a relative error of at most 1e-5, and Sqrt of infinity is infinity; both with SSE, whatever the low bits of the approximation of the processor are, and without SIMD.", "quantifier": "all nonnegative floats; all approximations of the inverse root with a relative error of at most 1.5 * 2^-12", "why_tests_cant": "There are 2^31 floats, and the approximation differs between processors.", "anchors": ["Code/Terathon/TSMath.cpp: Sqrt (159-188)"]}
{"id": "C115", "title": "InverseSqrt is accurate", "statement": "InverseSqrt(x) of a positive finite float is a finite float with a relative error of at most 1e-5; of zero it is infinity and of infinity it is zero; both with SSE and without SIMD.", "quantifier": "all nonnegative floats; all approximations of the inverse root", "why_tests_cant": "There are 2^31 floats, and the approximation differs between processors.", "anchors": ["Code/Terathon/TSMath.cpp: InverseSqrt (190-219)"]}
{"id": "C116", "title": "Arctan is defined and accurate", "statement": "Arctan(x) of a finite float is defined and differs from the arctangent by at most 4e-7; of the infinities it is half of pi with the sign.", "quantifier": "all floats that are not NaN", "why_tests_cant": "There are 2^32 floats; the index into the table and the error depend on the place between two of its entries.", "anchors": ["Code/Terathon/TSMath.cpp: Arctan (398-448)"]}
{"id": "C117", "title": "Arctan of two arguments is the angle of a point", "statement": "For two finite floats, not both zero, Arctan(y, x) differs from the angle of the point (x, y), which is between -pi and pi, by at most 1e-6.", "quantifier": "all pairs of finite floats", "why_tests_cant": "There are 2^64 pairs; the quotient may overflow or underflow.", "anchors": ["Code/Terathon/TSMath.cpp: Arctan (450-477)"]}
{"id": "C118", "title": "Arcsin is accurate", "statement": "Arcsin(y) of a float between -1 and 1 is defined and differs from the arcsine by at most 3e-6 with SSE and 1e-5 without.", "quantifier": "all floats between -1 and 1; all approximations of the inverse root", "why_tests_cant": "The derivative of the arcsine is infinite at 1, so the error depends on the cancellation in 1 - y * y.", "anchors": ["Code/Terathon/TSMath.cpp: Arcsin (387-390)"]}
{"id": "C119", "title": "Arccos is accurate", "statement": "Arccos(x) of a float between -1 and 1 is defined and differs from the arccosine by at most 2e-5.", "quantifier": "all floats between -1 and 1; all approximations of the inverse root", "why_tests_cant": "The derivative of the arccosine is infinite at 1, and the quotient overflows near 0.", "anchors": ["Code/Terathon/TSMath.cpp: Arccos (392-396)"]}
{"id": "C120", "title": "The mathematical constants are nearest floats", "statement": "Each of the 46 constants of the namespace Math is a float nearest to the number that its name stands for; max_float is the largest finite float, min_float the least normal positive one.", "quantifier": "all constants; compared with all finite floats", "why_tests_cant": "A constant with a wrong digit in the seventh place passes tests with tolerances; the reference values of a test come from the same source.", "anchors": ["Code/Terathon/TSMath.cpp: constants (25-78)"]}
{"id": "C121", "title": "Vector functions work component by component", "statement": "VecAdd, VecSub, VecMul, VecDiv, VecMin, VecMax, VecMadd, VecNmsub, the floor, ceiling and sign functions apply the corresponding float function to every component; sums, differences, products and quotients are nearest floats; the functions ending in Scalar do so for x only and keep the other components of one argument.", "quantifier": "all vectors of 32-bit patterns, including infinities and NaN", "why_tests_cant": "2^128 arguments per vector; a wrong shuffle or mask affects one component for few values.", "anchors": ["Code/Terathon/TSSimd.h: VecMin to VecDivScalar (623-887)", "Code/Terathon/TSSimd.h: VecFloor to VecNonzeroFnsgn (1145-1733)", "Code/Terathon/TSSimd.h: ExvMul, ExvMadd (2495-2508)"]}
{"id": "C122", "title": "Vector loads and stores", "statement": "The functions that store a vector or some of its components write exactly these at the given place, those that load read exactly these; accesses outside the memory and, for VecLoad and VecStore, at addresses that are not multiples of 16 are undefined; a stored vector is loaded unchanged; the smear functions repeat one component.", "quantifier": "all vectors, memory blocks and positions", "why_tests_cant": "Bytes overwritten next to the target are noticed by a test only if it looks at them.", "anchors": ["Code/Terathon/TSSimd.h: VecSmearX to VecStore3D (352-582)", "Code/Terathon/TSSimd.h: ExvSmearX to ExvStoreW (2430-2493)"]}
{"id": "C123", "title": "Vector comparisons and selection", "statement": "VecSelect with a mask made by VecMaskCmpeq, VecMaskCmplt or VecMaskCmpgt takes each component of the second vector where the comparison holds and of the first elsewhere; the scalar and Any3D comparisons agree with the order of floats and ignore w.", "quantifier": "all vectors, including zeros of both signs, infinities and NaN", "why_tests_cant": "The outcomes for NaN and signed zeros in single components are rarely tested.", "anchors": ["Code/Terathon/TSSimd.h: VecAnd to VecCmpgtAny3D (889-1095)"]}
{"id": "C124", "title": "VecNegate changes the sign of every component", "statement": "Every component of VecNegate(v) is the negative of the component of v, with the opposite sign bit.", "quantifier": "all vectors", "why_tests_cant": "Comparing with == does not tell the two zeros apart.", "anchors": ["Code/Terathon/TSSimd.h: VecNegate (597-621)"]}
{"id": "C125", "title": "Dot products and sums are accurate", "statement": "The x component of VecDot3D, VecDot4D, VecPlaneDotPoint3D and VecHorizontalSum3D is finite and differs from the exact sum by at most 4 (5, 5, 3) units of 2^-24 of the sum of the absolute values of the terms, apart from underflow; the dot products are symmetric.", "quantifier": "all finite vectors whose terms add up to at most 2^126 in absolute value", "why_tests_cant": "An error bound is a statement about all pairs of vectors.", "anchors": ["Code/Terathon/TSSimd.h: VecHorizontalSum3D to VecPlaneDotPoint3D (1735-1832)"]}
{"id": "C126", "title": "The cross product is accurate and antisymmetric", "statement": "Every component of VecCross3D is within 3 units of 2^-24 of the absolute values of its two products; w is zero; the product of a vector and itself is exactly zero; exchanging the factors changes the sign exactly.", "quantifier": "all finite vectors whose products do not overflow; antisymmetry for all vectors", "why_tests_cant": "Exact cancellation must hold for all vectors, not only for those with small integers.", "anchors": ["Code/Terathon/TSSimd.h: VecCross3D (1864-1887)"]}
{"id": "C127", "title": "Transformation, projection and rejection are accurate", "statement": "VecTransformVector3D and VecTransformPoint3D multiply by the matrix with the given columns, VecProject3D and VecReject3D give (a.b) b and a - (a.b) b, each component within a few units of 2^-24 of the sum of the absolute values of the terms.", "quantifier": "all finite vectors whose terms do not overflow", "why_tests_cant": "An error bound is a statement about all arguments.", "anchors": ["Code/Terathon/TSSimd.h: VecProject3D, VecReject3D (1834-1862)", "Code/Terathon/TSSimd.h: VecTransformVector3D, VecTransformPoint3D (1889-1922)"]}
{"id": "C128", "title": "Vector square roots are accurate", "statement": "Every component of VecInverseSqrt(v) and VecSqrt(v), and the first one of the functions for scalars, has a relative error of at most 1e-5 if the component of v is a positive finite float; the root of zero is zero.", "quantifier": "all vectors; all approximations of the processor that satisfy the documentation", "why_tests_cant": "The low bits of rsqrtps differ between processors; subnormal numbers and infinities are easily forgotten.", "anchors": ["Code/Terathon/TSSimd.h: VecInverseSqrt to VecSqrtScalar (1097-1143)"]}
{"id": "C129", "title": "Vectors of integers", "statement": "Unpacking widens every integer without changing it; packing gives the nearest integer that fits; packing what was unpacked gives it back; merging and deinterleaving put the elements in the documented order; VecInt32Add and VecInt32Sub are exact modulo 2^32; loads and stores access exactly their elements.", "quantifier": "all vectors of 128 bits", "why_tests_cant": "2^128 arguments; an error in one of the saturation limits concerns one value in 2^32.", "anchors": ["Code/Terathon/TSSimd.h: VecInt8GetZero to VecInt16Deinterleave (1924-2358)", "Code/Terathon/TSSimd.h: VecInt32Add, VecInt32Sub (2386-2410)"]}
{"id": "C130", "title": "Conversions between vectors of integers and floats", "statement": "VecInt32ConvertFloat gives a nearest float of every integer, VecConvertInt32 the nearest integer of every float (the even one in a tie) on every processor; VecTruncateConvert drops the fraction.", "quantifier": "all integers; all floats in the range of int32", "why_tests_cant": "Tests with whole numbers cannot tell rounding from truncation, and run on one processor.", "anchors": ["Code/Terathon/TSSimd.h: VecTruncateConvert (584-595)", "Code/Terathon/TSSimd.h: VecInt32ConvertFloat, VecConvertInt32 (2360-2384)"]}
{"id": "C131", "title": "The key classes are ordered", "statement": "For ConstCharKey, StringKey and FileNameKey, the operators ==, != and < are defined for all texts; != is the opposite of ==; of x == y, x < y and y < x exactly one holds; < is transitive.", "quantifier": "all pairs and triples of texts", "why_tests_cant": "A cycle or an incomparable pair concerns a few texts among infinitely many.", "anchors": ["Code/Terathon/TSString.h: ConstCharKey, StringKey, FileNameKey (539-683)"]}
{"id": "C132", "title": "A map with keys that are texts is a map", "statement": "After any history of insertions and removals, a Map whose elements have keys of one of the key classes contains for every text exactly the element that was inserted for it first and not removed since; for FileNameKey, names that differ in case only are the same key.", "quantifier": "all histories of insertions and removals, all texts", "why_tests_cant": "An inconsistent order loses elements only after certain histories.", "anchors": ["Code/Terathon/TSString.h: ConstCharKey, StringKey, FileNameKey (539-683)", "Code/Terathon/TSMap.h: Map"]}
{"id": "C133", "title": "Strings own their memory", "statement": "As long as memory is granted, for every history of constructions, copies, moves, assignments, concatenations and destructions of any number of strings no deleted block is accessed or deleted again; every live block belongs to exactly one string and has the size the string believes; when all strings are destroyed no block is left.", "quantifier": "all histories on any number of strings, all lengths", "why_tests_cant": "Leaks and double deletions depend on the history and on the lengths of the texts, and need not be visible.", "anchors": ["Code/Terathon/TSString.cpp: String<0> constructors to EncodeEscapeSequences (150-855)", "Code/Terathon/TSString.h: String (move, SetStringLength)"]}
{"id": "C134", "title": "Strings survive lack of memory", "statement": "Whatever requests for memory fail, no deleted block is accessed or deleted again, every live block belongs to exactly one string, and no string believes its block to be larger than it is; after Deserialize into a string has answered kException, the string can be destroyed.", "quantifier": "all histories on any number of strings, all choices of failing requests", "why_tests_cant": "Tests do not run out of memory.", "anchors": ["Code/Terathon/TSString.cpp: String<0>::Resize, operator =, operator += (375-600)", "Code/Json4C4/C4Json.h: Deserialize (753-776), MayThrow (174-190)"]}
{"id": "C135", "title": "Large buffers are parsed like small ones", "statement": "For every text buffer of an Array<char> (fewer than 2^31 bytes), Parse with its 32-bit lengths, capacities and line numbers gives the result it would give with unbounded integers; in particular no integer overflows.", "quantifier": "all buffers of fewer than 2^31 bytes", "why_tests_cant": "Tests do not use buffers of gigabytes.", "anchors": ["Code/Json4C4/C4Json.cpp: StructuredData::Parse (1712-1808), Value::Parse functions", "Code/Terathon/TSString.h: GetPhysicalSize", "Code/Terathon/TSArray.h: SetReservedCount, AppendArrayElement (889-904)"]}
{"id": "C136", "title": "Any indentation length can be used", "statement": "For every uint32 indentation length, indentation character and document, Write gives the file what it would give with unbounded integers.", "quantifier": "all indentation lengths below 2^32, all documents", "why_tests_cant": "Tests use indentations of a few characters; an overflow needs large lengths or deep documents.", "anchors": ["Code/Json4C4/C4Json.cpp: ExpandArray (603-609), ArrayValue::Write, ObjectValue::Write", "Code/Terathon/TSArray.h: SetReservedCount, AppendArrayElement (889-904)"]}
{"id": "C137", "title": "The status names the first fault", "statement": "A terminated text buffer of at least three bytes that is rejected has a first fault of the kind that the status names (no value, leading zero, illegal character or escape in a string, end of the text in a string, missing quote, colon, comma or closing bracket, something after the document), everything before it being as it should, and the reported line and column are those of the fault (counted from the first byte that is not whitespace; a fault in a string counts at its opening quote, and whitespace at the fault is skipped). Conversely every such fault is reported so, and a text without fault is accepted.", "quantifier": "all buffers, all statuses", "why_tests_cant": "The statuses and positions of all wrong texts cannot be enumerated, and nested structures must pass the inner status on unchanged.", "anchors": ["Code/Json4C4/C4Json.cpp: ParseAnyValue (1043), StringValue::Parse, NumberValue::Parse, ArrayValue::Parse, ObjectValue::Parse, ParseJsonRoot (1693-1734)"]}
{"id": "C138", "title": "Parsing takes quasi-linear time", "statement": "Parse of a buffer of n bytes takes at most (4 log2(n+1) + 66) n + 5 elementary steps (bytes looked at, written or moved, elements constructed or moved, names compared in the tree), whatever the nesting, the names and the mistakes in the text, and has the result of the other properties.", "quantifier": "all buffers, all previous documents", "why_tests_cant": "A test measures chosen texts; a text for which the parser is quadratic or worse need not be among them.", "anchors": ["Code/Json4C4/C4Json.cpp: Parse (1736-1852), ParseAny, ObjectValue::Parse, InsertAccountedMapElement (1472-1477)", "Code/Terathon/TSArray.h: SetReservedCount", "Code/Terathon/TSMap.h: InsertMapElement"]}
{"id": "C139", "title": "What is written is polynomial in what was read", "statement": "The text that Write produces after Parse of a text is at most polynomially longer than that text.", "quantifier": "all accepted texts", "why_tests_cant": "The texts for which it fails are specific; sizes of tests are fixed.", "anchors": ["Code/Json4C4/C4Json.cpp: InsertAccountedMapElement (1472-1477), ObjectValue::Write (1652-1690)"]}
{"id": "C140", "title": "Appending is amortised", "statement": "Appending n elements one by one to an empty Array takes at most 5 n constructions and moves; building a text of n bytes from k pieces with += on an empty String reads and copies at most 5 n + 3 k bytes. The container then shows the elements or the text.", "quantifier": "all sequences of elements and pieces, all numbers of local slots", "why_tests_cant": "The bound concerns sequences of any length; a change of the growth rule keeps all results.", "anchors": ["Code/Terathon/TSArray.h: SetReservedCount (478-497, 788-808), AppendArrayElement (889-903)", "Code/Terathon/TSString.cpp: operator += (465-513)"]}
{"id": "C141", "title": "Exp of integers and Arctan of 64ths are nearest floats", "statement": "Exp(n) for an integer n from -87 to 88 is a float nearest to e^n, and Arctan(n / 64.0F) for an integer n from -64 to 64 is a float nearest to the arctangent of n / 64: no float is nearer to the exact real number.", "quantifier": "all integers in the ranges, all other floats", "why_tests_cant": "A test compares with another library, which is not exact either; here the exact real numbers are compared.", "anchors": ["Code/Terathon/TSMath.cpp: Exp (479-529), Arctan (398-448), tables 402-414 and 483-508"]}
{"id": "C142", "title": "The table of sines and cosines contains nearest floats", "statement": "Each entry of Math::trigTable is a float nearest to the cosine or sine of its multiple of tau / 256.", "quantifier": "all 512 entries, all other floats", "why_tests_cant": "As for C141.", "anchors": ["Code/Terathon/TSMath.cpp: trigTable (81-115)"]}
{"id": "C143", "title": "The language accepted without the C library's conversions", "statement": "In the configuration without JSON4C4_USE_SYSTEM_DOUBLE_STRING_CONVERSIONS, Parse of a text always returns; it succeeds exactly for JSON texts with the strings of the dialect and with numbers consisting of an optional sign, whitespace and a literal that may contain underscores; the values obtained are those of the text, each number being what ReadDouble gives for its literal, negated for a minus sign. On failure the position reported lies behind a prefix that can be completed to an accepted text.", "quantifier": "all texts, every arithmetic of doubles", "why_tests_cant": "The set of accepted texts is infinite, and the default build exercises only the other number reader.", "anchors": ["Code/Json4C4/C4Json.cpp: ReadDouble (843-988), ParseNumber (1165-1193), ParseArray/ParseObject (1357-1419, 1479-1561), ParseRoot (1693-1734)"]}
{"id": "C144", "title": "RFC 8259 texts are accepted without the C library's conversions", "statement": "In that configuration every RFC 8259 text of at least two bytes whose strings contain neither DEL nor \\u0000 nor an escaped high surrogate is accepted and gives the value of the text, whatever its numbers are. Neither configuration accepts all texts of the other.", "quantifier": "all RFC 8259 texts of this kind", "why_tests_cant": "As for C143; two configurations have to be compared.", "anchors": ["Code/Json4C4/C4Json.cpp: ParseNumber (1165-1193), the two number readers (807-989)"]}
{"id": "C145", "title": "Write and Parse are inverse without the C library's conversions", "statement": "In that configuration, a document with harmless strings and names is parsed back from what Write wrote, with the same structure, names, strings, truth values and numbers.", "quantifier": "all documents, indentations, and behaviours of Log and Exp", "why_tests_cant": "The documents are unbounded; the loss of numbers depends on the configuration.", "anchors": ["Code/Json4C4/C4Json.cpp: NumberValue::Write (1209-1230), ReadDouble (843-988)", "Code/Terathon/TSText.cpp: FloatToString"]}
{"id": "C146", "title": "The compiler's hash is the hash of the running program", "statement": "The hash of a literal of at most 17 characters computed by the compiler (StaticHash<...>::value) equals Text::Hash of the string with these characters.", "quantifier": "all texts of at most 17 characters without NUL, signed and unsigned char", "why_tests_cant": "The number of texts is astronomical, and whether char is signed depends on the platform.", "anchors": ["Code/Terathon/TSText.h: StaticHash (391-413)", "Code/Terathon/TSText.cpp: Hash (488-506)"]}
{"id": "C147", "title": "Strings made from unsigned and 64-bit numbers", "statement": "Constructing a String<>, assigning to it, adding to it and appending to it a number of type uint32, int64 or uint64 gives a string that ends in the decimal representation of the number and begins with the previous text, if it is to be kept.", "quantifier": "all numbers of the types, all strings, all contents of fresh memory", "why_tests_cant": "There are 2^64 numbers; the wrong ones lie above 2^31 and 2^63.", "anchors": ["Code/Terathon/TSString.cpp: String<0> constructors (196-201, 260-280, 417-429), operators = and += (536-597)"]}
{"id": "C148", "title": "The precision of numbers without the C library's conversions", "statement": "In the configuration without JSON4C4_USE_SYSTEM_DOUBLE_STRING_CONVERSIONS, a document with harmless strings whose numbers are zero or have absolute values between 2^-126 and 2^127 can be written and parsed again, with the same structure, and every number comes back with a relative error of at most 3e-5.", "quantifier": "all documents, indentations and doubles in the range", "why_tests_cant": "There are about 2^60 doubles in the range; conversion, printing with Log and Exp, and reading each contribute an error.", "anchors": ["Code/Json4C4/C4Json.cpp: NumberValue::Write (1209-1230), ReadDouble (843-988)", "Code/Terathon/TSText.cpp: FloatToString (1258-1449)", "Code/Terathon/TSMath.cpp: Log, Exp"]}
{"id": "C149", "title": "Saving what was loaded changes nothing", "statement": "In the configuration without JSON4C4_USE_SYSTEM_DOUBLE_STRING_CONVERSIONS, if a document with harmless strings and printable numbers is written, parsed and written again with the same indentation, the second text equals the first.", "quantifier": "all documents, indentations and printable doubles", "why_tests_cant": "A test sees a few numbers and one or two cycles. Which doubles are fixed points depends on all digits of Log, Exp and the reader.", "anchors": ["Code/Json4C4/C4Json.cpp: NumberValue::Write (1209-1230), ReadDouble (843-988), ParseJsonRoot", "Code/Terathon/TSText.cpp: FloatToString (1258-1449)", "Code/Terathon/TSMath.cpp: Log, Exp"]}
{"id": "C150", "title": "Whole numbers survive without the C library's conversions", "statement": "In the configuration without JSON4C4_USE_SYSTEM_DOUBLE_STRING_CONVERSIONS, whole numbers of absolute value at most 2^24, which are exact as float and as double, come back exactly when a document is written and parsed again.", "quantifier": "all documents with harmless strings and numbers of this kind, all indentations", "why_tests_cant": "There are 2^25 such numbers at every place of every document; tests with small numbers all pass.", "anchors": ["Code/Json4C4/C4Json.cpp: NumberValue::Write (1209-1230), ReadDouble (843-988)", "Code/Terathon/TSText.cpp: FloatToString (1258-1449)"]}
{"id": "C151", "title": "A document is not larger than its text", "statement": "A parsed document has at most half as many values as its text has bytes (rounded up), counting also values that are leaked, and stores at most twice as many bytes of strings and names. For every buffer, accepted or not and whichever requests fail, Parse makes at most six requests for memory for each byte.", "quantifier": "all buffers, all patterns of failing requests", "why_tests_cant": "Memory amplification needs particular texts; a test only measures those somebody thought of.", "anchors": ["Code/Json4C4/C4Json.cpp: ParseValue (1012-1041), ParseAnyValue (1043-1086), ArrayValue::Parse (1357-1419), ObjectValue::Parse (1479-1561), InsertAccountedMapElement (1472-1477)"]}
{"id": "C152", "title": "Integer vectors do not depend on the processor", "statement": "The functions on vectors of integers (packing with saturation, unpacking, merging, sums, differences, conversion to float, loads and stores) give the same bytes compiled for NEON and for SSE, for all registers; loads agree wherever the one of SSE is defined.", "quantifier": "all registers, all memory blocks and offsets", "why_tests_cant": "A register has 2^128 values, and tests run on one processor.", "anchors": ["Code/Terathon/TSSimd.h: functions on vec_int8 to vec_uint32 (1924-2410), branches TERATHON_SSE and TERATHON_NEON"]}
{"id": "C153", "title": "Float vectors do not depend on the processor", "statement": "What a program computes with vectors of floats is the same with the code for SSE, SSE4 and NEON: constants, smears, shuffles, masks, comparisons, sums, products and stores give the same components.", "quantifier": "all vectors", "why_tests_cant": "Tests run on one processor, and the results differ for particular values only.", "anchors": ["Code/Terathon/TSSimd.h: functions on vec_float (295-1922), branches TERATHON_SSE, TERATHON_SSE4, TERATHON_NEON"]}
{"id": "C154", "title": "Accuracy of division on NEON", "statement": "On NEON the components of VecDiv are the floats nearest to the exact quotients, unless these are too large. (True: within a relative error of 1e-5 for normal divisors.)", "quantifier": "all finite dividends and divisors", "why_tests_cant": "2^64 pairs; the error comes from a table in the processor and one correction.", "anchors": ["Code/Terathon/TSSimd.h: VecDiv (844-872), VecDivScalar (874-902)"]}
{"id": "C155", "title": "Accuracy of roots on NEON", "statement": "On NEON the components of VecSqrt and VecInverseSqrt have a relative error of at most 1e-5 for positive finite floats, the root of zero is zero, and that of infinity is infinity. (True: 2e-5 for normal numbers.)", "quantifier": "all positive floats", "why_tests_cant": "The largest errors occur at the boundaries of the processor's table.", "anchors": ["Code/Terathon/TSSimd.h: VecInverseSqrt, VecSqrt, VecInverseSqrtScalar, VecSqrtScalar (1097-1143)"]}
{"id": "C156", "title": "Fused products and transformations on NEON", "statement": "On NEON VecMadd and VecNmsub give the floats nearest to a * b + c and c - a * b, rounded once, and the transformations of vectors and points by a matrix keep the error bounds they have on SSE.", "quantifier": "all finite vectors and matrices with results in range", "why_tests_cant": "Rounding once or twice differs in rare cases only; the bound is over all reals.", "anchors": ["Code/Terathon/TSSimd.h: VecMadd, VecNmsub (792-842), VecTransformVector3D, VecTransformPoint3D (1889-1922)"]}
{"id": "C157", "title": "Cross product on NEON", "statement": "On NEON the cross product of a vector and itself is zero, exchanging the factors changes the signs, and the fourth component is zero. (True: the first three components are within 2.5 units of the exact ones.)", "quantifier": "all finite vectors with products in range", "why_tests_cant": "Exact cancellation holds for most vectors that are used in tests.", "anchors": ["Code/Terathon/TSSimd.h: VecCross3D (1864-1887), branch TERATHON_NEON"]}
{"id": "C158", "title": "Rounding with SSE4", "statement": "Compiled for SSE4, VecFloor and VecCeil, their scalar forms and VecFloorCeil give the greatest integer not greater, and the least not less, than each finite component; infinities and NaN stay.", "quantifier": "all 2^32 floats in all components", "why_tests_cant": "Special cases are near 2^23, near zero and for both signs.", "anchors": ["Code/Terathon/TSSimd.h: VecFloor, VecFloorScalar, VecCeil, VecCeilScalar, VecFloorCeil (1145-1707), branch TERATHON_SSE4"]}
{"id": "C159", "title": "Sums of components with SSE4", "statement": "Compiled for SSE4, VecDot3D, VecDot4D and VecPlaneDotPoint3D are within four units (2^-24 relative to the sum of absolute values) of the exact sums, and VecDot3D gives the same number as on SSE (up to the sign of zero).", "quantifier": "all finite vectors with products in range", "why_tests_cant": "The order of additions differs from that on SSE; rounding differs for particular values only.", "anchors": ["Code/Terathon/TSSimd.h: VecDot3D, VecDot4D, VecPlaneDotPoint3D, VecHorizontalSum3D (1735-1832), branch TERATHON_SSE4"]}
{"id": "C160", "title": "Time of writing", "statement": "Writing a document that Parse has read from a buffer of n bytes, indented by i characters per level, takes at most (4 log2 n + 3 i + 50)(b + 1) + 4 (i + b) + 4 steps, where b is the number of bytes written (bytes copied or compared, tree nodes visited, characters of the indentation moved); never fewer than 2 b. The capacity of the indentation array is at most 2 (i + b) + 8.", "quantifier": "all accepted buffers, all indentations, all nestings and all sets of names", "why_tests_cant": "Time is a bound over all documents; a test observes single running times, and the rare slow cases (deep trees, growth of the indentation) need particular documents.", "anchors": ["Code/Json4C4/C4Json.cpp: ArrayValue::Write (1440-1470), ObjectValue::Write (1656-1692), ExpandArray (603-609), WriteFile (421-490)", "Code/Terathon/TSMap.h: FindMapElement (754-775)", "Code/Terathon/TSArray.h: AppendArrayElement, SetArrayElementCount (819-844)"]}
{"id": "C161", "title": "Time of iterating over a map", "statement": "A loop over all n elements of a map (range-for, or GetLastMapElement with GetPreviousMapElement) takes exactly 2 n steps, where a step is one round of a loop over tree nodes; operator[] takes at most 2 n. In a map made by insertions and removals a single call of GetFirstMapElement, GetLastMapElement, GetNextMapElement or GetPreviousMapElement takes at most 1.45 log2 (n + 1) steps, as the comments in the header promise for the first two.", "quantifier": "all trees; for single calls all histories of insertions and removals and all elements", "why_tests_cant": "Asymptotic bounds over all trees and elements; a test measures single cases, and the exact total shows that no shape of the tree is an exception.", "anchors": ["Code/Terathon/TSMap.cpp: GetFirstMapElement, GetLastMapElement (33-65), GetPreviousMapElement, GetNextMapElement (67-119), operator[] (161-177)", "Code/Terathon/TSMap.h: MapIterator (270-300), running times in the comments (371, 390)"]}
{"id": "C162", "title": "Time of insertions and removals", "statement": "In a map with n elements made by insertions and removals, InsertMapElement takes at most 2.9 log2 (n + 1) steps, and FindMapElement with RemoveMapElement at most 4.35 log2 (n + 1), where a step is one round of a loop or one rotation. Any m calls, beginning with an empty map, take together at most m times 4.35 log2 (m + 1) steps.", "quantifier": "all histories of insertions and removals, all keys", "why_tests_cant": "Worst cases over all orders of calls: a test with random or sorted keys does not show that no order makes the tree degenerate.", "anchors": ["Code/Terathon/TSMap.h: InsertMapElement (587-631), FindMapElement (754-775)", "Code/Terathon/TSMap.cpp: InsertLeftSubnode, InsertRightSubnode (396-552), RemoveBranchNode (599-681), RemoveMapElement (683-736)"]}
{"id": "C163", "title": "Emptying a map", "statement": "RemoveAllMapElements, PurgeMap and the destructor of a map with n elements make exactly n calls of the recursive function, one for each element, and never more than 1.45 log2 (n + 1) of them are active at the same time, so that the stack needed for a map of any size is small.", "quantifier": "all histories of insertions and removals", "why_tests_cant": "The recursion depth is a worst case over all maps that can be made; a test sees single ones and does not see the stack.", "anchors": ["Code/Terathon/TSMap.cpp: RemoveSubtree, DeleteSubtree (121-153), ~MapBase (156-159), RemoveAllMapElements, PurgeMap (738-754)"]}
{"id": "C164", "title": "Serialize is defined on every document", "statement": "Serialize(value, data) and Serialize(value, name, data), for every data type, all data, every name and every value in a document that was made by any sequence of Parse, SerializeFrom and Serialize calls, have no undefined behaviour and return kOk or kInvalidValueType.", "quantifier": "all types of the universe Ty, all data, all names, all documents that Parse, SerializeFrom and Serialize can make, in any order, with changes to values inside them", "why_tests_cant": "The set of documents that histories can make is unbounded; the argument needs that every object keeps a balanced search tree, which a test cannot observe.", "anchors": ["Code/Json4C4/C4Json.h: Serialize (683-743, 778-802, 887-939, 1059-1101, 1207-1258, 1335-1378), SerializeProto (1470-1512)", "Code/Json4C4/C4Json.cpp: InsertAccountedMapElement (1472-1477), Serialize std::string (1898-1915)"]}
{"id": "C165", "title": "Serializing again", "statement": "Serializing new data of a type onto the document of old data of the same type gives the document of the new data. (Violated for user types: Serialize returns kOk, but the members keep the old data, and every name is listed once more, so that Write prints the members twice.)", "quantifier": "all types, all old and new data", "why_tests_cant": "A claim about all types and pairs of data; the repository's tests serialize to new documents only.", "anchors": ["Code/Json4C4/C4Json.h: Serialize(value, name, data) (683-743), SerializeProto (1470-1512)", "Code/Json4C4/C4Json.cpp: InsertAccountedMapElement (1472-1477)"]}
{"id": "C166", "title": "Documents made by the library can be written", "statement": "Every document made by a sequence of Parse, SerializeFrom and Serialize calls can be written: if the file can be opened, Write returns kOk. (Violated: a map serialized onto an object with listed members removes them but not their names, and Write returns kMissingObjectElement.)", "quantifier": "all histories of calls, all types and data, all disks", "why_tests_cant": "Histories are unbounded, and the list of names is not accessible through the API.", "anchors": ["Code/Json4C4/C4Json.h: Serialize ObjectMap (1059-1101), Serialize std::map (1335-1378), insertionOrder (493)", "Code/Json4C4/C4Json.cpp: ObjectValue::Write (1656-1691)"]}
{"id": "C167", "title": "Ownership when serializing onto existing values", "statement": "Every history of Parse, SerializeFrom, reading calls and Serialize calls on the document or values inside it is free of undefined behaviour (no object is destroyed twice or used after its destruction), and when the StructuredData is destroyed no value object is left. (Violated: Serialize of a field that exists leaks the new value, Serialize of a map leaks all members the object had.)", "quantifier": "all histories of calls, all data, all positions in the document; for the part about undefined behaviour also all sequences of failing requests for memory", "why_tests_cant": "Leaks and double destruction over unbounded histories with failing requests; a test observes neither without a sanitizer, and only for the histories it runs.", "anchors": ["Code/Json4C4/C4Json.h: Serialize (683-743, 887-939, 1059-1101, 1207-1258, 1335-1378), PurgePointerArray (459-468)", "Code/Json4C4/C4Json.cpp: InsertAccountedMapElement (1472-1477)", "Code/Terathon/TSMap.cpp: RemoveAllMapElements (738-745), RemoveSubtree (121-137)"]}
{"id": "C168", "title": "Earlier versions read documents of later versions", "statement": "If user types gain optional fields, at any depth, then every document the later version of the program deserializes with kOk is deserialized with kOk by the earlier version too, and the result is the same data without the added fields; a kNameNotPresent of the later version is a kNameNotPresent of the earlier one.", "quantifier": "all pairs of versions of a type (any number of optional fields added anywhere), all documents, all targets", "why_tests_cant": "Quantifies over all types, pairs of versions and documents; templates are instantiated by tests for a few types only.", "anchors": ["Code/Json4C4/C4Json.h: ValidateProto (1382-1424), DeserializeProto (1426-1468), Validate/Deserialize of containers (804-1378)"]}
{"id": "C169", "title": "Data survive a change of version", "statement": "For types whose data survive serialization (no std::vector, distinct field names): what one version serializes the other version, with optional fields added or removed, deserializes with kOk; fields of both versions carry the data, added fields keep what the target held. A document in which the added fields do not occur gets the same status from both versions.", "quantifier": "all pairs of versions, all data without NUL in std::string, all fresh targets; all documents for the status", "why_tests_cant": "Quantifies over all types, pairs of versions and data.", "anchors": ["Code/Json4C4/C4Json.h: SerializeProto, DeserializeProto (1426-1513), Serialize (683-743, 887-939, 1059-1101, 1335-1378)", "Code/Json4C4/C4Json.cpp: InsertAccountedMapElement (1472-1477)"]}
{"id": "C170", "title": "Deserializing again changes nothing", "statement": "Deserializing the same document a second time into the same variable returns the same status and leaves the variable exactly as the first time left it, whether the status is kOk or not. Maps stay sorted with distinct keys throughout.", "quantifier": "all types, all documents from Parse (for types without std::map: all values of documents made in any way), all previous contents of the variable", "why_tests_cant": "Quantifies over all types, documents and previous contents, including partly filled variables after failures.", "anchors": ["Code/Json4C4/C4Json.h: Deserialize (663-681, 843-885, 977-1057, 1157-1205, 1297-1333), DeserializeProto (1426-1468)", "Code/Json4C4/C4Json.cpp: Deserialize (1879-1896)"]}
{"id": "C171", "title": "Deserialize when memory runs out", "statement": "kException is returned exactly if one of the requests for memory made by the call failed; otherwise status and data are those of a call with enough memory. Maps in the data stay sorted with distinct keys whatever fails, and the map elements alive are the ones in the data.", "quantifier": "all types, documents and previous contents, all choices of which requests fail", "why_tests_cant": "Quantifies over all schedules of failing requests for every type and document; a test would need a failing allocator at each of the requests of each call.", "anchors": ["Code/Json4C4/C4Json.h: Deserialize (663-681, 753-776, 843-885, 977-1057, 1157-1205, 1297-1333, 1606-1609), DeserializeProto (1426-1468)", "Code/Json4C4/C4Json.cpp: Deserialize (1879-1896)"]}
{"id": "C172", "title": "Load, change, save", "statement": "A program that parses a text, deserializes it to an object of a user type, changes the object, serializes it and writes it (as Examples 2, 3 and 6 do) finds exactly the changed data when it loads the written text; the text passes Validate. Saving loaded data again gives the same bytes.", "quantifier": "all user types with distinct names, all accepted texts without backslashes and overflowing numbers, all changes that keep the texts free of characters that need escapes, all indentations", "why_tests_cant": "Quantifies over all types, texts and changes; the examples try one type each and do not load what they have saved.", "anchors": ["Code/Json4C4/C4Json.h: SerializeFrom, DeserializeTo, SerializeProto, DeserializeProto (1339-1609)", "Code/Json4C4/C4Json.cpp: StructuredData::Parse, StructuredData::Write", "Code/Examples/Example02_non_trivial_data_structure/main.cpp", "Code/Examples/Example06_std_data_structures/main.cpp"]}
{"id": "C173", "title": "Documents in layers", "statement": "Deserializing a document of defaults and then a document of settings into the same variable gives the same data, with kOk, as deserializing one document in which the settings replace the defaults: member by member in maps and user types, as a whole for everything else. Members that no field names do not matter.", "quantifier": "all types, all accepted texts whose documents have the shape of the type, all earlier contents of the variable", "why_tests_cant": "Quantifies over all types and pairs of documents; a test tries one pair.", "anchors": ["Code/Json4C4/C4Json.h: Deserialize of ObjectMap, std::map (977-1057, 1297-1337), DeserializeProto, DeserializeNamed (1339-1609)"]}
{"id": "C174", "title": "What saving keeps", "statement": "Saving data of a user type without std::vector (SerializeFrom, Write) and loading the file (Parse, DeserializeTo into a variable with empty maps) succeeds, and the loaded data are the saved data with all maps emptied, at every depth; nothing else is lost. So data are found again exactly if all their maps are empty, and the entries of maps do not influence the file.", "quantifier": "all user types without vectors whose names are distinct and can be written as they are, all data with texts that can be written as they are and finite numbers, all indentations", "why_tests_cant": "Quantifies over all types and data; it says exactly what a save loses, where a test sees one loss.", "anchors": ["Code/Json4C4/C4Json.h: SerializeFrom, Serialize of ObjectMap and std::map (589-621, 1059-1101, 1335-1378)", "Code/Json4C4/C4Json.cpp: ObjectValue::Write 1656-1691"]}
{"id": "C175", "title": "Texts that mean the same give the same data", "statement": "Two accepted texts whose values agree at every path (kinds, booleans, strings, converted numbers, lengths of arrays, members under each name) are deserialized to the same data with the same status, and validated with the same status: spaces, the order of members, repeated members and the spelling of strings and numbers do not matter.", "quantifier": "all pairs of accepted texts, all types, all earlier contents of the variable", "why_tests_cant": "Quantifies over pairs of texts and all types.", "anchors": ["Code/Json4C4/C4Json.h: Deserialize (753-1609), Validate", "Code/Json4C4/C4Json.cpp: Parse"]}
{"id": "C176", "title": "Exactly which data survive when vectors and NULs are involved", "statement": "For data with std::vectors and embedded NULs in any place (fields, elements of arrays and maps, keys, nested user types): SerializeFrom has defined behaviour and reports a failure exactly if the data is a vector, or an array or map with such an element. Deserializing the result into fresh data gives exactly the data in which every array and map ends before its first element that could not be serialized, every std::string and key of a std::map ends before its first NUL and of equal keys the first stays; or kInvalidValueType if a vector is reached as a field. The data survive exactly if there is no vector in them, not even an empty one, and no such NUL; what comes back survives from then on.", "quantifier": "all types with distinct field names (vectors allowed everywhere), all data that variables of these types can hold, all fresh targets", "why_tests_cant": "Quantifies over all types and data; the outcome depends on where in the type the vector is and which elements precede it.", "anchors": ["Code/Json4C4/C4Json.h: CreateValueFor (521-546), Serialize (683-743, 887-1378), Deserialize"]}
{"id": "C177", "title": "Validate takes time proportional to type and document", "statement": "Validating an accepted document against a type takes a number of steps (calls, rounds of loops, bytes compared in names, moves in the search trees) that is at most (2 log2 n + 5) times the size of the type times the number of values of the document, where n is the length of the text; so at most n log n for a fixed type. The product of the two sizes is reached.", "quantifier": "all accepted texts, all types", "why_tests_cant": "Quantifies over all documents and types; tests measure single inputs.", "anchors": ["Code/Json4C4/C4Json.h: Validate (643-661, 745-751, 804-841, 941-975, 1120-1155, 1260-1295), ValidateProto (1382-1424)", "Code/Terathon/TSMap.h: FindMapElement, iteration"]}
{"id": "C178", "title": "What a file gives back of data with vectors, maps and NULs", "statement": "Data of a user type with vectors, maps and NULs in any place is saved with success in a file that Parse accepts. Loading the file gives exactly the data whose maps are empty, whose arrays end before their first element that could not be serialized and whose std::strings end before their first NUL, and is refused exactly if a vector remains after that. So the data comes back unchanged exactly if it has no vector, no map entry and no NUL in a std::string; what came back once comes back unchanged ever after; and data that cannot be loaded without the detour through a file may be loaded from the file.", "quantifier": "all user types with distinct field names that use the form without a name for user types only, all data with writable texts and finite numbers, all indents of white space", "why_tests_cant": "Quantifies over types and data; the repository's tests have neither vectors in user types nor files with maps.", "anchors": ["Code/Json4C4/C4Json.h: CreateValueFor (521-546), Serialize (683-743, 887-1378), Deserialize", "Code/Json4C4/C4Json.h: SerializeFrom, Serialize of ObjectMap and std::map (589-621, 1059-1101, 1335-1378)", "Code/Json4C4/C4Json.cpp: ObjectValue::Write 1656-1691"]}
{"id": "C179", "title": "Infinities and NaN make the written text unreadable", "statement": "A document with readable texts and at least one infinity or NaN among its numbers, at any depth, is written with kOk, and Parse accepts no value for the written text. Apart from the lone numbers 0 to 9, the text of a document with readable texts is accepted exactly if all its numbers are finite; in particular a saved array of doubles can be loaded exactly if all of them are finite.", "quantifier": "all documents, all depths, all positions of the number, every indentation of white space", "why_tests_cant": "All documents and positions.", "anchors": ["Code/Json4C4/C4Json.cpp: NumberValue::Write (1211), ReadDoubleLiteral (805), StructuredData::Parse (1786)"]}
{"id": "C180", "title": "Without the C library, numbers beyond float make the text unreadable", "statement": "Without JSON4C4_USE_SYSTEM_DOUBLE_STRING_CONVERSIONS, a document with harmless strings and at least one number that is NaN, infinite or of magnitude 2^128 - 2^103 or more (finite doubles included), at any depth, is written with kOk, and Parse accepts no value for the written text, whatever the other numbers are as long as printing them is defined.", "quantifier": "all documents, depths and positions; all doubles outside of the range of float; every indentation of white space; both meanings of an overflowing shift", "why_tests_cant": "All documents and positions; the round trips of the tests use small numbers.", "anchors": ["Code/Json4C4/C4Json.cpp: NumberValue::Write (1211)", "Code/Terathon/TSText.cpp: Text::FloatToString (1258)"]}
{"id": "C181", "title": "One NaN in user data costs the whole file", "statement": "Data of a user type with an infinity or NaN, at any depth of arrays and user types, is serialized and written with kOk, and Parse refuses the file, so that nothing of the data can be loaded. For data with readable texts the file is accepted exactly if there is no infinity or NaN at a place that gets into the file (not in a vector or map, and not in or after an array element that cannot be serialized). Without the C library the same holds of every number too large for float.", "quantifier": "all user types (listed fields, distinct names), all data, all positions of the number, every indentation of white space", "why_tests_cant": "All types and all data.", "anchors": ["Code/Json4C4/C4Json.cpp: NumberValue::Write (1211), StructuredData::Parse (1786)", "Code/Json4C4/C4Json.h: Serialize (683-743, 887-939), SerializeProto (1470-1513)"]}
{"id": "C182", "title": "Texts cannot forge other fields", "statement": "When a text and other data are saved in a file and loaded with success, the text has no influence on the other data that come back. The code does otherwise: texts are written without escapes and of members with the same name the first one counts, so that for every text s and all data d' of the type of the second field there is one text p so that p, saved beside any data d whatsoever and with any indentation, is loaded as s beside d', and every call returns kOk.", "quantifier": "all types of the second field (listed fields, readable names), all data d and d', all texts s, all names, every indentation of white space", "why_tests_cant": "The text p depends on the data that is to be forged; a test saves texts that do not contain quotation marks.", "anchors": ["Code/Json4C4/C4Json.cpp: StringValue::Write (1154-1159), ObjectValue::Write (1656-1691), InsertAccountedMapElement (1472), ObjectValue::Parse (1534)", "Code/Json4C4/C4Json.h: Serialize (683-743), SerializeProto (1470-1512), DeserializeProto (1426-1468)"]}
{"id": "C183", "title": "Fields with the same name", "statement": "Data of a user type comes back from a file as C178 says, also if names of its fields (own ones or inherited) are repeated. The code does otherwise: of any number of fields with the same name and type only the first one is saved, its value stands in the file once for each of them, and all of them are loaded with it; every call returns kOk. If the first one is a text and the second one neither a text nor of a user type, saving succeeds and loading gives kInvalidValueType, always.", "quantifier": "all types, all data, any number of fields with the name, every indentation of white space", "why_tests_cant": "A test of a type without repeated names does not show it, and one with repeated names sees kOk.", "anchors": ["Code/Json4C4/C4Json.cpp: InsertAccountedMapElement (1472), ObjectValue::Write (1656-1691)", "Code/Json4C4/C4Json.h: Serialize (683-743), SerializeProto (1470-1512), DeserializeProto (1426-1468)"]}
{"id": "C184", "title": "Saving what was loaded", "statement": "What comes back of data of a user type from its file (C178) has the same file, byte for byte, whatever its texts and numbers are and with every way of writing numbers; so saving, loading and saving again gives the same file, though the data may have changed. Two data with readable texts and finite numbers, one of which can be loaded again, have the same file exactly if the same comes back of them.", "quantifier": "all user types (listed fields, distinct names) with vectors, maps and NULs in any place, all data, all indentations", "why_tests_cant": "All types and all pairs of data.", "anchors": ["Code/Json4C4/C4Json.cpp: ArrayValue::Write (1440-1466), ObjectValue::Write (1656-1691)", "Code/Json4C4/C4Json.h: Serialize (683-743, 887-939, 1077-1098, 1353-1374), SerializeProto (1470-1512), DeserializeProto (1426-1468)"]}
{"id": "C185", "title": "Texts cannot forge elements", "statement": "An array of texts that is saved in a file and loaded with success has as many elements as before. The code does otherwise: for every list of readable texts ss (at least one) there is one text p so that an array of readable texts with p at any place is loaded with ss in the place of p, and every call returns kOk. It never has fewer elements than before, whatever the texts are, and exactly as many if no text has a quotation mark.", "quantifier": "all arrays of texts without NULs, every indentation of white space, all number conversions", "why_tests_cant": "A test saves texts that do not contain quotation marks, and only some arrays.", "anchors": ["Code/Json4C4/C4Json.cpp: StringValue::Write (1154-1159), ArrayValue::Write (1440-1466)", "Code/Json4C4/C4Json.h: Deserialize of Array (843-885), Serialize of Array (887-939)"]}
{"id": "C186", "title": "A document keeps its shape when it is saved and loaded", "statement": "A document that was read from a text, written with any indentation of white space, and read again with success has the shape of before: the same kinds of values at the same places, arrays of the same lengths, objects with the same members in the same order, and the same truth values; only texts and numbers may differ. The code does otherwise: the array with the one text \",\" is read again as an array of two texts. The statement holds for all documents whose texts have no quotation marks and whose names need no escapes, with any backslashes and control characters in the texts, and any numbers.", "quantifier": "all accepted texts, all indentations of white space, binary64 numbers", "why_tests_cant": "A test compares some documents, and not those with texts that the writer does not escape.", "anchors": ["Code/Json4C4/C4Json.cpp: StringValue::Write (1154-1159), ArrayValue::Write (1440-1466), ObjectValue::Write (1656-1691), ArrayValue::Parse (1357), ObjectValue::Parse (1479), StructuredData::Parse (1786)"]}
{"id": "C187", "title": "A file can be loaded and saved any number of times", "statement": "A document that was saved and loaded with success can be saved and loaded with success again, so that loading and saving can be repeated without end. The code does otherwise: for every n there is a document, read from a text, that can be saved and loaded n times with success, and whose file is rejected after it was saved once more (a text of 2^n backslashes). Documents with readable texts and names and exactly printed numbers can be saved and loaded any number of times and stay the same. An array of texts without quotation marks stays the same when it is saved and loaded, and then for ever, or its texts get shorter.", "quantifier": "all documents, all n, all indentations of white space, all number conversions", "why_tests_cant": "A test repeats saving and loading a few times at most; the failure can come after any number of repetitions.", "anchors": ["Code/Json4C4/C4Json.cpp: StringValue::Write (1154-1159), StringValue::Parse (1091), StructuredData::Parse (1786)"]}
