{"id": "C01", "title": "Char encodes every code point as standard UTF-8", "statement": "Constructing a Char from a Unicode scalar value other than 0 stores exactly the byte sequence RFC 3629 prescribes for it.", "quantifier": "every Unicode scalar value 1..0x10FFFF outside the surrogates", "why_tests_cant": "1.1 million scalar values across four length classes; a test samples boundaries, a proof covers every bit pattern.", "anchors": ["include/Caitlyn/__Core/Char/Char.h: Char(CodePoint), FromCodePoint"]}
{"id": "C02", "title": "Code point round trip", "statement": "Char(cp).GetCodePoint() returns cp.", "quantifier": "every 32-bit cp; true exactly below 0x200000 and the theorem says what happens above", "why_tests_cant": "2^32 inputs.", "anchors": ["include/Caitlyn/__Core/Char/Char.h: FromCodePoint, GetCodePoint"]}
{"id": "C03", "title": "GetCodePoint is safe on every validated Char", "statement": "For every Char obtained from a string constructor, from a code point or by default construction, GetCodePoint reads only inside the stored bytes; the only Chars on which it reads out of bounds are those built from a single raw byte 0xE0..0xF7.", "quantifier": "every byte sequence", "why_tests_cant": "Out-of-bounds reads are usually silent when tested.", "anchors": ["include/Caitlyn/__Core/Char/Char.h: GetCodePoint, IsValidUtf8Char, Char(StdChar)"]}
{"id": "C04", "title": "String decodes valid UTF-8 one element per code point", "statement": "Building a String from the UTF-8 bytes of any sequence of non-NUL scalar values succeeds, has one element per scalar, each element reports that scalar as its code point, and str() gives the bytes back.", "quantifier": "every finite sequence of scalar values", "why_tests_cant": "Unbounded sequences; every mixture of encoded lengths.", "anchors": ["include/Caitlyn/__Core/String/String.h: BasicString(ConstRawPtr), DecodeUtf8Char, str, size", "include/Caitlyn/__Core/Char/Char.h"]}
{"id": "C05", "title": "Byte-exact construction", "statement": "Whenever constructing a String from bytes succeeds, str() is exactly the input up to its first NUL, ByteCount() is its length, and every element is a structurally valid UTF-8 character; whatever follows the NUL is never read.", "quantifier": "every byte buffer", "why_tests_cant": "Unbounded arbitrary buffers.", "anchors": ["include/Caitlyn/__Core/String/String.h: constructors 55-75, str 473, ByteCount 431"]}
{"id": "C06", "title": "Malformed UTF-8 is rejected, never undefined", "statement": "Constructing a String from a NUL-terminated byte sequence either succeeds or throws; it never reads past the terminator, and it succeeds only on well-formed UTF-8.", "quantifier": "every NUL-terminated byte sequence", "why_tests_cant": "Needs all malformed inputs; the violating reads do not crash in ordinary runs.", "anchors": ["include/Caitlyn/__Core/String/String.h: DecodeUtf8Char 977-1003", "include/Caitlyn/__Core/Char/Char.h: IsValidUtf8Char 252"]}
{"id": "C07", "title": "Ordering of Strings is byte order and code point order", "statement": "For Strings made of valid characters, a < b (element-wise) holds exactly when str() of a is lexicographically below str() of b byte-wise; for Strings of scalar values it also is code point order. So comparing with a String and with a C string agree.", "quantifier": "every pair of valid Strings", "why_tests_cant": "Pairs of unbounded strings; depends on UTF-8 being prefix-free.", "anchors": ["include/Caitlyn/__Core/String/String.h: comparison operators 305-363", "include/Caitlyn/__Core/Char/Char.h: comparison operators 134-162"]}
{"id": "C08", "title": "Equality of Strings is equality of bytes", "statement": "Two Strings of valid characters are equal iff their str() are equal, so == against a String and against a C string agree.", "quantifier": "every pair of valid Strings", "why_tests_cant": "Unbounded pairs.", "anchors": ["include/Caitlyn/__Core/String/String.h: operator== 305-320"]}
{"id": "C09", "title": "Concatenation", "statement": "operator+, operator+= and Append produce the elements of the left followed by those of the right; sizes, byte counts and str() add up; += agrees with +.", "quantifier": "every pair of Strings", "why_tests_cant": "Unbounded.", "anchors": ["include/Caitlyn/__Core/String/String.h: operator+=, operator+, Append, PushBack"]}
{"id": "C10", "title": "Substring", "statement": "Substring(pos,count) throws out_of_range iff pos > size(), otherwise returns the elements from pos, at most count of them; it is never undefined, even when pos+count overflows size_t.", "quantifier": "every String, every pos and count up to 2^64-1", "why_tests_cant": "Overflow corner cases of size_t are not reached by tests.", "anchors": ["include/Caitlyn/__Core/String/String.h: Substring 419-428"]}
{"id": "C11", "title": "Find returns the first occurrence", "statement": "For a non-empty needle and pos <= size(), Find returns the least index >= pos at which the needle occurs, and NPosition iff it occurs nowhere from pos on; pos > size() is undefined; the empty needle is found at pos except at the end.", "quantifier": "every haystack, needle, pos", "why_tests_cant": "Leastness and completeness quantify over all indices.", "anchors": ["include/Caitlyn/__Core/String/String.h: Find 392-397"]}
{"id": "C12", "title": "ReverseFind returns the last occurrence", "statement": "ReverseFind returns the start index of the last occurrence of the needle that ends no later than pos.", "quantifier": "every haystack, needle, pos", "why_tests_cant": "Greatestness quantifies over all indices.", "anchors": ["include/Caitlyn/__Core/String/String.h: ReverseFind 400-416"]}
{"id": "C13", "title": "StartsWith / EndsWith / Contains", "statement": "They decide exactly the prefix, suffix and contiguous-substring relations.", "quantifier": "every pair of Strings", "why_tests_cant": "Unbounded pairs.", "anchors": ["include/Caitlyn/__Core/String/String.h: StartsWith 366, EndsWith 376, Contains 386"]}
{"id": "C14", "title": "Insert", "statement": "Insert(pos, x) throws out_of_range and changes nothing iff pos > size(); otherwise the result is the first pos elements, x, then the rest.", "quantifier": "every String, pos, inserted text (String, Char, count of chars)", "why_tests_cant": "Unbounded.", "anchors": ["include/Caitlyn/__Core/String/String.h: Insert 485-516"]}
{"id": "C15", "title": "At is bounds checked", "statement": "At(i) returns element i when i < size() and throws out_of_range otherwise; operator[] is undefined exactly where At throws.", "quantifier": "every String and index", "why_tests_cant": "Quantifies over all indices.", "anchors": ["include/Caitlyn/__Core/String/String.h: At 162-178, operator[]"]}
{"id": "C16", "title": "Case mapping of Strings keeps length and maps element-wise", "statement": "ToUppercase/ToLowercase on a String never change size() and map each element by the code point mapping; ASCII letters are mapped as in ASCII, other ASCII characters are unchanged.", "quantifier": "every String without raw invalid bytes", "why_tests_cant": "Unbounded.", "anchors": ["include/Caitlyn/__Core/String/String.h: ToUppercase 519, ToLowercase 529", "include/Caitlyn/__Core/Char/Utility.h"]}
{"id": "C17", "title": "Case-less characters are untouched by case mapping", "statement": "Code points that are neither upper nor lower case letters are returned unchanged by ToUppercase and ToLowercase.", "quantifier": "every code point", "why_tests_cant": "2^32 inputs; tests use Latin letters only.", "anchors": ["include/Caitlyn/__Core/Char/Utility.h: ToUppercase 137, ToLowercase 252"]}
{"id": "C18", "title": "Case mapping is idempotent", "statement": "ToLowercase(ToLowercase(c)) = ToLowercase(c) and likewise for ToUppercase.", "quantifier": "every code point", "why_tests_cant": "2^32 inputs.", "anchors": ["include/Caitlyn/__Core/Char/Utility.h: ToUppercase 137, ToLowercase 252"]}
{"id": "C19", "title": "Case mappings invert each other on basic alphabets", "statement": "For the letters of basic Latin, Latin-1, Greek and Cyrillic, ToLowercase inverts ToUppercase and conversely.", "quantifier": "every letter of the ranges (listed in the theorem)", "why_tests_cant": "Ranges with exceptions inside them.", "anchors": ["include/Caitlyn/__Core/Char/Utility.h: ToUppercase 137, ToLowercase 252"]}
{"id": "C20", "title": "Character classes are disjoint", "statement": "No code point is both a space and a digit, a space and a letter, a digit and a letter, or both upper and lower case.", "quantifier": "every code point", "why_tests_cant": "2^32 inputs over ~200 ranges.", "anchors": ["include/Caitlyn/__Core/Char/Utility.h: IsSpace, IsDigit, IsUppercase, IsLowercase, IsLetter"]}
{"id": "C21", "title": "IsDigit implies ToDigit", "statement": "ToDigit(c) is the decimal value of c exactly for the characters accepted by IsDigit, and -1 for all others.", "quantifier": "every code point", "why_tests_cant": "2^32 inputs.", "anchors": ["include/Caitlyn/__Core/Char/Utility.h: IsDigit 60, ToDigit 524"]}
{"id": "C22", "title": "KMP search decides substring", "statement": "KMP(text, pattern) is true iff pattern occurs in text, and every table and pattern access is in bounds.", "quantifier": "every text and non-empty pattern (the empty pattern is characterised separately)", "why_tests_cant": "The failure function is exactly the kind of code whose errors show on rare periodic patterns only.", "anchors": ["include/Caitlyn/__Core/String/Algorithms/Kmp.h: get_kmp_failure_vec 29-44, kmp 48-66"]}
{"id": "C23", "title": "Split and join", "statement": "Splitting at a separator and joining the pieces with it gives the text back, up to one trailing separator; no piece contains the separator.", "quantifier": "every text and separator", "why_tests_cant": "Unbounded texts; edge cases at both ends.", "anchors": ["include/Caitlyn/__Core/String/Utility.h: Split 30-41"]}
{"id": "C24", "title": "Repeat", "statement": "Repeat(s, n) is n copies of s.", "quantifier": "every s and n", "why_tests_cant": "Unbounded n.", "anchors": ["include/Caitlyn/__Core/String/Utility.h: Repeat 43-55"]}
{"id": "C25", "title": "EscapeString resolves escapes", "statement": "Text without backslashes is unchanged, and every text written with the supported escapes is decoded to the text it denotes.", "quantifier": "every text", "why_tests_cant": "Unbounded; interaction of consecutive escapes.", "anchors": ["include/Caitlyn/__Core/String/Utility.h: EscapeString 57-147"]}
{"id": "C26", "title": "First and last non-space", "statement": "FindFirstNonSpace / FindLastNonSpace return the least / greatest index holding a non-space character, and size() if there is none.", "quantifier": "every String", "why_tests_cant": "Boundary behaviour at index 0 and at the empty string.", "anchors": ["include/Caitlyn/__Core/String/Utility.h: FindFirstNonSpace 155, FindLastNonSpace 167"]}
{"id": "C27", "title": "StringBuilder accumulates", "statement": "After any sequence of Append/AppendLine, copies and moves, str() is the concatenation of what was appended to that builder (or to the builder it was copied or moved from before).", "quantifier": "every sequence of operations on any number of builders", "why_tests_cant": "Histories; the copy-then-append case shows only in mixed histories.", "anchors": ["include/Caitlyn/__Core/String/StringBuilder.h: StringBuilder"]}
{"id": "C28", "title": "Format leaves brace-free text alone", "statement": "Format(text, args...) with at least one argument returns text unchanged when it has no curly bracket.", "quantifier": "every text of valid characters, every non-empty argument list", "why_tests_cant": "Unbounded.", "anchors": ["include/Caitlyn/__Core/String/String.h: Format 563-663"]}
{"id": "C29", "title": "Brace escaping round trip", "statement": "If every bracket of a text is doubled, Format returns the original text.", "quantifier": "every text of valid characters, every non-empty argument list", "why_tests_cant": "Interaction of adjacent and nested brackets.", "anchors": ["include/Caitlyn/__Core/String/String.h: Format 563-663"]}
{"id": "C30", "title": "Sequential placeholders", "statement": "With n >= 2 arguments and k <= n '{}' placeholders, Format substitutes the first k arguments in order; with exactly one argument every '{}' is that argument.", "quantifier": "every alternation of brace-free literals and placeholders, every argument list", "why_tests_cant": "Unbounded templates.", "anchors": ["include/Caitlyn/__Core/String/String.h: Format 563-663"]}
{"id": "C31", "title": "Indexed placeholders", "statement": "'{i}' is replaced by argument i for i below the number of arguments, and raises FormatError for larger i.", "quantifier": "every index, every argument list", "why_tests_cant": "All indices including those with many digits.", "anchors": ["include/Caitlyn/__Core/String/String.h: Format 563-663"]}
{"id": "C32", "title": "Indexed placeholders with a specification", "statement": "'{i:spec}' formats argument i.", "quantifier": "every index and specification", "why_tests_cant": "Argument selection depends on the history of earlier placeholders.", "anchors": ["include/Caitlyn/__Core/String/String.h: Format 605-640"]}
{"id": "C33", "title": "Alignment and width", "statement": "Formatting a value with an alignment specification yields the value padded with the fill character on the specified side(s) to max(width, length) characters: left, right, or centre with the extra fill character on the right.", "quantifier": "every value text, fill, alignment and width", "why_tests_cant": "Unbounded widths.", "anchors": ["include/Caitlyn/__Core/String/String.h: ProcessAlignment 874-896, ParseAlignment 765-804"]}
{"id": "C34", "title": "Format never has undefined behaviour", "statement": "Whatever the template and arguments, Format either returns or throws.", "quantifier": "every template and argument list", "why_tests_cant": "Out-of-bounds vector reads are silent in tests.", "anchors": ["include/Caitlyn/__Core/String/String.h: Format 563-663, ParseAlignment 765"]}
{"id": "C35", "title": "Unmatched brackets are reported", "statement": "A template in which a '{' is never closed, or which has a lone '}', raises FormatError.", "quantifier": "every template of the described shape", "why_tests_cant": "Unbounded templates.", "anchors": ["include/Caitlyn/__Core/String/String.h: Format 563-663"]}
{"id": "C36", "title": "BigInteger parse/print round trip", "statement": "Parsing the decimal representation of an integer and printing gives the same text; the constructed number has that value; leading zeros and '+' are normalised away; -0 prints as 0.", "quantifier": "every integer of any size; every digit string with optional sign", "why_tests_cant": "Unbounded digits.", "anchors": ["include/Caitlyn/__Numeric/Types/BigInteger.h: BigInteger(String) 51-81, ToString 373-389"]}
{"id": "C37", "title": "BigInteger rejects non-numbers", "statement": "A string that is not an optional sign followed by ASCII decimal digits (at least one) makes the constructor throw invalid_argument.", "quantifier": "every String", "why_tests_cant": "All malformed strings.", "anchors": ["include/Caitlyn/__Numeric/Types/BigInteger.h: BigInteger(String) 51-81"]}
{"id": "C38", "title": "BigInteger addition is exact", "statement": "a + b is the mathematical sum.", "quantifier": "every pair of numbers of any size and sign", "why_tests_cant": "Unbounded; sign combinations.", "anchors": ["include/Caitlyn/__Numeric/Types/BigInteger.h: Add 113-150"]}
{"id": "C39", "title": "BigInteger subtraction is exact", "statement": "a - b is the mathematical difference.", "quantifier": "every pair of numbers of any size and sign", "why_tests_cant": "Unbounded; sign combinations.", "anchors": ["include/Caitlyn/__Numeric/Types/BigInteger.h: Subtract 152-193"]}
{"id": "C40", "title": "BigInteger multiplication is exact", "statement": "a * b is the mathematical product, in canonical form, and no digit access is out of bounds nor any digit computation overflows.", "quantifier": "every pair", "why_tests_cant": "Unbounded sizes; carry propagation.", "anchors": ["include/Caitlyn/__Numeric/Types/BigInteger.h: Multiply 195-214"]}
{"id": "C41", "title": "BigInteger division truncates", "statement": "For b non-zero, a / b is the quotient rounded toward zero; for b = 0 it throws invalid_argument.", "quantifier": "every pair of canonical numbers", "why_tests_cant": "Unbounded; the quotient digit search.", "anchors": ["include/Caitlyn/__Numeric/Types/BigInteger.h: Divide 216-257"]}
{"id": "C42", "title": "BigInteger remainder", "statement": "For b non-zero, a % b is a - b*(a/b) with the sign of a and |a % b| < |b|.", "quantifier": "every pair of canonical numbers", "why_tests_cant": "Unbounded.", "anchors": ["include/Caitlyn/__Numeric/Types/BigInteger.h: Modulo 259-267"]}
{"id": "C43", "title": "BigInteger power", "statement": "Pow(e) is the e-th power for e >= 0 and throws invalid_argument for e < 0; it terminates.", "quantifier": "every base and exponent", "why_tests_cant": "Unbounded exponents; square-and-multiply invariant.", "anchors": ["include/Caitlyn/__Numeric/Types/BigInteger.h: Pow 277-296"]}
{"id": "C44", "title": "BigInteger square root", "statement": "Sqrt() of n >= 0 terminates and is the largest r with r*r <= n; it throws for n < 0.", "quantifier": "every canonical number", "why_tests_cant": "Unbounded; Newton-style termination.", "anchors": ["include/Caitlyn/__Numeric/Types/BigInteger.h: Sqrt 303-335"]}
{"id": "C45", "title": "BigInteger comparisons are the integer order", "statement": "==, !=, <, >, <=, >= agree with the order of the values.", "quantifier": "every pair of canonical numbers", "why_tests_cant": "Unbounded; all sign combinations.", "anchors": ["include/Caitlyn/__Numeric/Types/BigInteger.h: Equal 343, LessThan 348, GreaterThan 368, operators 411-475"]}
{"id": "C46", "title": "Canonical form is preserved", "statement": "Every BigInteger obtained from strings and arithmetic has digits 0..9, no leading zero and no negative zero, so equal values are equal representations.", "quantifier": "every expression over the API", "why_tests_cant": "Closure over all expressions.", "anchors": ["include/Caitlyn/__Numeric/Types/BigInteger.h"]}
{"id": "C47", "title": "64-bit integer constructors", "statement": "BigInteger(int64/uint64 v) has value v, including INT64_MIN.", "quantifier": "every 64-bit integer", "why_tests_cant": "2^64 inputs.", "anchors": ["include/Caitlyn/__Numeric/Types/BigInteger.h: constructors 39-45"]}
{"id": "C48", "title": "BigFloat parse/print round trip", "statement": "Parsing a decimal numeral i.f and printing gives a numeral of the same value.", "quantifier": "every numeral", "why_tests_cant": "Unbounded; leading zeros of the fraction.", "anchors": ["include/Caitlyn/__Numeric/Types/BigFloat.h: BigFloat(String) 41-68, ToString 337-346"]}
{"id": "C49", "title": "BigFloat addition and subtraction terminate and are exact", "statement": "a+b and a-b return the exact decimal sum/difference.", "quantifier": "every pair of numerals", "why_tests_cant": "Non-termination cannot be observed by a terminating test.", "anchors": ["include/Caitlyn/__Numeric/Types/BigFloat.h: Add 105-135, Subtract 137-166"]}
{"id": "C50", "title": "BigFloat multiplication is exact", "statement": "a*b has the exact decimal product as value.", "quantifier": "every pair of numerals", "why_tests_cant": "Unbounded.", "anchors": ["include/Caitlyn/__Numeric/Types/BigFloat.h: Multiply 168-197"]}
{"id": "C51", "title": "BigFloat order", "statement": "a < b iff the value of a is below the value of b.", "quantifier": "every pair of numerals", "why_tests_cant": "Unbounded pairs.", "anchors": ["include/Caitlyn/__Numeric/Types/BigFloat.h: LessThan 315-330, Equal 309"]}
{"id": "C52", "title": "JSON print/parse round trip", "statement": "Parsing what ToString printed (compact or pretty, any indent) gives an equal document without error.", "quantifier": "every document tree", "why_tests_cant": "Unbounded trees and strings.", "anchors": ["include/Caitlyn/__Serializing/Json/Types/JsonData.h: MakeOutput 357-467", "include/Caitlyn/__Serializing/Json/Types/JsonParser.h"]}
{"id": "C53", "title": "JSON parsing terminates", "statement": "Parse terminates on every input, well-formed or not.", "quantifier": "every String", "why_tests_cant": "A test cannot show termination on all inputs.", "anchors": ["include/Caitlyn/__Serializing/Json/Types/JsonParser.h"]}
{"id": "C54", "title": "JSON parsing is memory safe", "statement": "Parse never reads outside the input.", "quantifier": "every String", "why_tests_cant": "Silent out-of-bounds reads.", "anchors": ["include/Caitlyn/__Serializing/Json/Types/JsonParser.h: ParseObject 120-195, ParseArray 197-243, ParseString 257-345, Parse 32-59"]}
{"id": "C55", "title": "Errors are reported and sticky", "statement": "Once any error has been recorded while parsing, HasError() is true at the end and the document root is Null; if HasError() is false, the root is an Object.", "quantifier": "every input on which Parse returns", "why_tests_cant": "Any error at any depth.", "anchors": ["include/Caitlyn/__Serializing/Json/Types/JsonParser.h", "include/Caitlyn/__Serializing/Json/Json.h: Parse 107-127"]}
{"id": "C56", "title": "Accepted input is JSON", "statement": "If Parse returns without error then the text is a JSON object (of the accepted dialect) and the resulting tree is the one it denotes.", "quantifier": "every input without backslash", "why_tests_cant": "All accepted inputs, not a sample.", "anchors": ["include/Caitlyn/__Serializing/Json/Types/JsonParser.h"]}
{"id": "C57", "title": "JSON string escapes", "statement": "A string literal with escapes parses to the string it denotes.", "quantifier": "every string literal", "why_tests_cant": "Interaction of escapes with following characters.", "anchors": ["include/Caitlyn/__Serializing/Json/Types/JsonParser.h: ParseString 257-345"]}
{"id": "C58", "title": "JSON numbers", "statement": "An integer literal within int64 parses to that integer; a literal outside is reported as OutOfRangeError; a literal with a fractional part keeps its value.", "quantifier": "every number literal", "why_tests_cant": "2^64 integers and unbounded literals.", "anchors": ["include/Caitlyn/__Serializing/Json/Types/JsonParser.h: ParseNumber 364-403"]}
{"id": "C59", "title": "Object keys are unique", "statement": "No sequence of API calls and no parse produces an object with two members of the same key; a repeated key in a text keeps the last value at the first position.", "quantifier": "every history and every text", "why_tests_cant": "Histories.", "anchors": ["include/Caitlyn/__Serializing/Json/Types/JsonData.h: operator[](key) 156-171", "include/Caitlyn/__Serializing/Json/Types/JsonParser.h: ParseObject"]}
{"id": "C60", "title": "JsonDocument behaves as an insertion-ordered map", "statement": "operator[], AddMember, RemoveMember, HasMember, Size and At on a document refine the corresponding operations of an insertion-ordered finite map.", "quantifier": "every sequence of operations", "why_tests_cant": "Histories.", "anchors": ["include/Caitlyn/__Serializing/Json/Json.h", "include/Caitlyn/__Serializing/Json/Types/JsonData.h"]}
{"id": "C61", "title": "Array operations", "statement": "Append adds at the end, Size counts elements, At(i) is bounds checked, operator[](i) in range refers to element i.", "quantifier": "every history", "why_tests_cant": "Histories.", "anchors": ["include/Caitlyn/__Serializing/Json/Types/JsonData.h: operator[](index) 173-186, At 189-217, Append 221-235, Size 238"]}
{"id": "C62", "title": "Typed getters are total and type checked", "statement": "GetString, GetFloating, GetIntegral, GetBoolean and GetData return the stored value if the type is theirs, and the default value (GetData: logic_error) otherwise; factory functions Make* produce the type they name.", "quantifier": "every value", "why_tests_cant": "All type/getter combinations over all values.", "anchors": ["include/Caitlyn/__Serializing/Json/Types/JsonData.h: GetData 307, getters 321-339, Make* 622-668"]}
{"id": "C63", "title": "Value semantics of JsonData", "statement": "Copying a value and then modifying the copy leaves the original unchanged; moving leaves the source Null; every owned node is released exactly once.", "quantifier": "every tree and every history of copies, moves, assignments and destruction", "why_tests_cant": "Ownership over histories, self-subtree assignment.", "anchors": ["include/Caitlyn/__Serializing/Json/Types/JsonData.h: CopyUnion 469, MoveUnion 507, DestroyUnion 539, operator= 100-153"]}
{"id": "C64", "title": "Error messages identify the error", "statement": "GetErrorString gives a distinct message for each JsonError.", "quantifier": "every JsonError", "why_tests_cant": "Exhaustive over the enum.", "anchors": ["include/Caitlyn/__Serializing/Json/Utility.h: GetErrorString 28-59"]}
{"id": "C65", "title": "Expected is a sum type", "statement": "HasValue and HasError are complementary; Get returns the value or throws logic_error; GetError dually; UnwrapOr, UnwrapOrElse, Fold select by the tag.", "quantifier": "every value type, value and error", "why_tests_cant": "Parametric in types.", "anchors": ["include/Caitlyn/__Core/Error/Expected.h"]}
{"id": "C66", "title": "Expected obeys functor and monad laws and short-circuits", "statement": "Map/MapError/AndThen/OrElse satisfy the functor/monad laws and never call the function on the other side; OnError returns the object unchanged and Inspect runs exactly the function of the object's side.", "quantifier": "every value, error and function, with effects", "why_tests_cant": "Quantifies over functions.", "anchors": ["include/Caitlyn/__Core/Error/Expected.h: Map 159 .. Inspect 307"]}
{"id": "C67", "title": "Expected lifetime safety", "statement": "Over any history of construction, copy, move, assignment (including self) and destruction, each contained object is destroyed exactly once and never used after destruction.", "quantifier": "every history, with copies that may throw", "why_tests_cant": "Histories and throwing points.", "anchors": ["include/Caitlyn/__Core/Error/Expected.h: 58-118, DestroyUnion 318-352"]}
{"id": "C68", "title": "UniquePtr deletes exactly once", "statement": "Over any history, an object owned by a UniquePtr is deleted exactly once, when its last owner is destroyed, reset or overwritten; never twice, never while owned.", "quantifier": "every history", "why_tests_cant": "Histories.", "anchors": ["include/Caitlyn/__Core/Memory/Types/UniquePointer.h"]}
{"id": "C69", "title": "SharedPtr frees the object exactly when the last owner goes", "statement": "Over any history the object is deleted when and only when its last SharedPtr is released, never twice and never while an owner exists.", "quantifier": "every history", "why_tests_cant": "Histories.", "anchors": ["include/Caitlyn/__Core/Memory/Types/SharedPointer.h: Release 153-160"]}
{"id": "C70", "title": "SharedPtrs share and own what the history says", "statement": "After any history of construction, copy, move, assignment and Reset, each SharedPtr points to the object it was given or copied, the object is alive, moved-from and reset pointers are empty, and the shared count is the number of owners.", "quantifier": "every history, including copies of empty pointers", "why_tests_cant": "Histories.", "anchors": ["include/Caitlyn/__Core/Memory/Types/SharedPointer.h"]}
{"id": "C71", "title": "WeakPtr expires", "statement": "A WeakPtr does not keep the object alive and expires when the last SharedPtr is released.", "quantifier": "every history", "why_tests_cant": "Histories.", "anchors": ["include/Caitlyn/__Core/Memory/Types/WeakPointer.h"]}
{"id": "C72", "title": "Raw Ptr ownership", "statement": "Ptr.Reset and Destroy delete the pointee once; dereferencing a null Ptr throws.", "quantifier": "every history on non-aliased Ptrs", "why_tests_cant": "Histories.", "anchors": ["include/Caitlyn/__Core/Memory/Types/RawPointer.h"]}
{"id": "C73", "title": "File append/read-line round trip", "statement": "Lines written with WriteLine/AppendLine to a file are what ReadLine returns afterwards in order, and then the empty string at end of file.", "quantifier": "every list of lines without newline", "why_tests_cant": "Unbounded files.", "anchors": ["include/Caitlyn/__Core/File/File.h: WriteLine, AppendLine, ReadLine"]}
{"id": "C74", "title": "Writes never lose existing content", "statement": "In the append-mode stream, Write and Append only ever add at the end of the file.", "quantifier": "every history", "why_tests_cant": "Histories.", "anchors": ["include/Caitlyn/__Core/File/File.h: Open 57-68, Write 176-238, Append 304-372"]}
{"id": "C75", "title": "Writes take effect", "statement": "A successful Write makes the data part of the file.", "quantifier": "every history, including after reaching end of file", "why_tests_cant": "The failing history (read to EOF, then write) is unusual in tests.", "anchors": ["include/Caitlyn/__Core/File/File.h: Write 176-238, ReadLine 136-174"]}
{"id": "C76", "title": "File Read returns the content", "statement": "Read returns the content of the file.", "quantifier": "every file content", "why_tests_cant": "Missing terminator reads past a buffer.", "anchors": ["include/Caitlyn/__Core/File/File.h: Read 118-134"]}
{"id": "C77", "title": "Console line input", "statement": "ReadLine returns the successive lines of the input; ReadChar the first character of a line.", "quantifier": "every input", "why_tests_cant": "Empty lines.", "anchors": ["include/Caitlyn/__Core/IO/Stream.h: InputStream 31-53"]}
{"id": "C78", "title": "Every registered test runs exactly once per RunAll", "statement": "RunAll runs each registered test exactly once, grouped by suite in name order and in registration order inside a suite.", "quantifier": "every registration history and every test outcome, including exceptions with any message", "why_tests_cant": "Histories.", "anchors": ["include/Caitlyn/__Testing/Types/TestRegistry.h: AddTest 47, RunAll 53-109"]}
{"id": "C79", "title": "RunAll's result and counters", "statement": "RunAll returns 0 iff no test has failed; passed + failed = number of executions.", "quantifier": "every registration history and every test outcome, repeated runs", "why_tests_cant": "Histories.", "anchors": ["include/Caitlyn/__Testing/Types/TestRegistry.h: RunAll 53-109"]}
{"id": "C80", "title": "Application initialises once", "statement": "The first Initialize succeeds, every later one throws runtime_error and leaves the state unchanged.", "quantifier": "every history", "why_tests_cant": "Histories.", "anchors": ["include/Caitlyn/__Caitlyn/Application.h: Initialize 34-60"]}
{"id": "C81", "title": "Mixed-sign comparisons are mathematical", "statement": "cmp_eq and cmp_less compare the mathematical values of their arguments whatever their signedness and width.", "quantifier": "all integer types and values", "why_tests_cant": "2^128 pairs.", "anchors": ["include/Caitlyn/__Core/Utility/Comparators.h: cmp_eq 26-40, cmp_less 49-63"]}
{"id": "C82", "title": "Map keys and values", "statement": "GetMapKeys/GetMapValues list keys/values of a map in key order, aligned with each other.", "quantifier": "every map", "why_tests_cant": "Unbounded.", "anchors": ["include/Caitlyn/__Core/Collections/Utility/MapUtility.h"]}
{"id": "C83", "title": "BigFloat division", "statement": "a/b throws for b = 0 and otherwise returns the quotient cut off after a known number of digits.", "quantifier": "every pair of numerals", "why_tests_cant": "Unbounded pairs; the failing lengths exhaust memory.", "anchors": ["include/Caitlyn/__Numeric/Types/BigFloat.h: Divide 199-233"]}
{"id": "C84", "title": "BigFloat powers", "statement": "Pow(e) is the e-th power for e >= 0 and an exception for e < 0.", "quantifier": "every numeral and exponent", "why_tests_cant": "Unbounded bases and exponents; induction over the loop.", "anchors": ["include/Caitlyn/__Numeric/Types/BigFloat.h: Pow 243-262, Sqr 264-267"]}
{"id": "C85", "title": "BigFloat square root", "statement": "Sqrt terminates; for a negative number it throws; otherwise the result is the square root cut off after some digits.", "quantifier": "every numeral", "why_tests_cant": "Non-termination cannot be observed by a terminating test; unbounded numbers.", "anchors": ["include/Caitlyn/__Numeric/Types/BigFloat.h: Sqrt 269-301"]}
{"id": "C86", "title": "BigFloat absolute value, copies, moves, size", "statement": "Abs is the absolute value, a copy or the target of a move has the value of the original, Size is the number of digits.", "quantifier": "every numeral", "why_tests_cant": "Unbounded.", "anchors": ["include/Caitlyn/__Numeric/Types/BigFloat.h: Abs 236-241, copy/move 70-102, Size 304-307"]}
{"id": "C87", "title": "Erase makes the file new", "statement": "After Erase the file is empty and lines written afterwards are read from the first one on.", "quantifier": "every earlier history", "why_tests_cant": "The failing histories (read, erase, write, read) are unusual in tests.", "anchors": ["include/Caitlyn/__Core/File/File.h: Erase 78-88, ReadLine 136-174"]}
{"id": "C88", "title": "File positions can be saved and restored", "statement": "SetPosition to what GetPosition returned makes ReadLine return the same line again, whatever was called in between.", "quantifier": "every history and position", "why_tests_cant": "Histories, including the end of the file.", "anchors": ["include/Caitlyn/__Core/File/File.h: SetPosition 100-109, GetPosition 111-114, ReadLine 136-174"]}
{"id": "C89", "title": "The test report", "statement": "The text RunAll prints is the report of the run: a header with the number of tests and suites, for every suite its tests with OK or FAILED, their messages and their own durations, the totals, and the list of failed tests.", "quantifier": "every registration history, every test outcome, every clock", "why_tests_cant": "The text depends on all tests, their messages and the clock; the wrong durations and the counters of a second run are not looked at by any test.", "anchors": ["include/Caitlyn/__Testing/Types/TestRegistry.h: RunAll 53-109, Log* 116-190"]}
{"id": "C90", "title": "Assertion macros", "statement": "An assertion macro passes exactly if its condition holds, evaluates each operand once, otherwise throws a runtime_error naming operands, relation and both values; used as a statement it behaves as one statement.", "quantifier": "every operand (with side effects), every relation, every program state", "why_tests_cant": "Operands with side effects and every pair of values; macro expansion next to other statements.", "anchors": ["include/Caitlyn/__Testing/Macro/Assert.h: 24-92"]}
{"id": "C91", "title": "ASSERT_STREQ and FAIL_MESSAGE", "statement": "ASSERT_STREQ passes exactly on equal C strings (or two null pointers) and otherwise fails the test; FAIL_MESSAGE() << ... fails the test with the whole message.", "quantifier": "every pair of C strings or null pointers, every message", "why_tests_cant": "Failing it ends the test process, so a test cannot observe it.", "anchors": ["include/Caitlyn/__Testing/Macro/Assert.h: 94-123", "include/Caitlyn/__Testing/Types/TestFailMessage.h: 26-55"]}
{"id": "C92", "title": "Assertions decide the outcome of a test", "statement": "A test runs to its first failing assertion, passes exactly if there is none, and a failing assertion does not keep other tests from running.", "quantifier": "every test body, every operand text and value", "why_tests_cant": "Needs the interplay of macros, exceptions and the registry for all values.", "anchors": ["include/Caitlyn/__Testing/Macro/Assert.h: 24-123", "include/Caitlyn/__Testing/Types/TestRegistry.h: RunAll 53-109"]}
{"id": "C93", "title": "A throwing Append leaves the string unchanged", "statement": "If appending or inserting a text throws, the String is what it was before; if it does not throw, it is the old content followed by the characters of the text.", "quantifier": "every String, every byte sequence given as C string", "why_tests_cant": "The failing input must be malformed, and the partial result is only visible to code that catches the exception and keeps using the object.", "anchors": ["include/Caitlyn/__Core/String/String.h: Append 270-298, Insert 485-516"]}
{"id": "C94", "title": "FindIf and FindIfNot find the first match", "statement": "FindIf(pred) returns the index of the first character satisfying pred, FindIfNot that of the first not satisfying it, and npos if there is none.", "quantifier": "every String, every predicate", "why_tests_cant": "Quantifies over all predicates and all strings.", "anchors": ["include/Caitlyn/__Core/String/String.h: 442-455"]}
{"id": "C95", "title": "Repeated characters", "statement": "String(count, ch), Append(count, ch) give exactly count copies of the character, also if ch refers to an element of the string itself.", "quantifier": "every count, every character, every string and capacity", "why_tests_cant": "Depends on the capacity of the vector and on references into storage that is reallocated.", "anchors": ["include/Caitlyn/__Core/String/String.h: 83-97, 290-298"]}
{"id": "C96", "title": "IsNumber recognises digit strings", "statement": "IsNumber(s) is true exactly if every character of the string is a digit character.", "quantifier": "every String", "why_tests_cant": "Quantifies over all strings, including malformed characters made from single bytes.", "anchors": ["include/Caitlyn/__Core/String/Utility.h: 149-153"]}
{"id": "C97", "title": "Char comparisons form a linear order", "statement": "The six comparison operators of Char agree with one linear order, and on valid characters that order is the order of the code points.", "quantifier": "every pair and triple of characters, every code point", "why_tests_cant": "The agreement of UTF-8 byte order with code point order holds for about a million code points squared.", "anchors": ["include/Caitlyn/__Core/Char/Char.h: 134-162"]}
{"id": "C98", "title": "BigFloat from double and from C strings", "statement": "BigFloat(double) has the value of the double rounded to six decimals, and construction from a C string is construction from the same text.", "quantifier": "every double, every C string", "why_tests_cant": "All doubles; infinities and NaN, negative values below one and leading zeros after the point.", "anchors": ["include/Caitlyn/__Numeric/Types/BigFloat.h: 31-39", "include/Caitlyn/__Numeric/Types/BigInteger.h: 47-49"]}
{"id": "C99", "title": "JSON documents are independent values", "statement": "After any program of constructions, copies, moves, assignments, parses, additions and removals, each document depends only on the operations on itself and on what was copied or moved into it; HasError tells whether the text it was last parsed from was malformed.", "quantifier": "every program with any number of documents, whatever exceptions it catches", "why_tests_cant": "All interleavings of operations on all documents.", "anchors": ["include/Caitlyn/__Serializing/Json/Types/Json.h: 28-186, 191-225"]}
{"id": "C100", "title": "Console programs write and read in order", "statement": "In every program of console calls, each of the three output streams holds exactly the messages, values, line ends and prompts of the calls in order, the n-th line asked for is the n-th line of the input, a call whose format throws writes and reads nothing, and everything written is flushed before input is taken.", "quantifier": "every program, every input, every message and format", "why_tests_cant": "All interleavings of reads, writes and exceptions; the order of flushing and reading is invisible to a test that redirects the streams.", "anchors": ["include/Caitlyn/__Core/IO/Stream.h: 28-261"]}
{"id": "C101", "title": "Type traits agree with the standard", "statement": "Qualifier, reference, pointer and sign modifications, the primary type categories, Same/Different, Rank/Extent/AlignmentOf, Required and the operator detectors give for every C++ type what the standard library's traits of the same meaning give.", "quantifier": "every type of the type grammar (qualified fundamental and class types, pointers, member pointers, arrays, references, functions, nested to any depth)", "why_tests_cant": "There are infinitely many types, and each test fixes one.", "anchors": ["include/Caitlyn/__Core/Traits/Types/Base.h", "include/Caitlyn/__Core/Traits/Types/Specifiers.h: 26-86", "include/Caitlyn/__Core/Traits/Types/References.h: 26-65", "include/Caitlyn/__Core/Traits/Types/Pointers.h: 26-68", "include/Caitlyn/__Core/Traits/Types/Primary.h: 26-221", "include/Caitlyn/__Core/Traits/Types/SignModifiers.h: 26-174", "include/Caitlyn/__Core/Traits/Types/Operators.h: 27-215", "include/Caitlyn/__Core/Traits/Constraints/Primary.h: 25-113", "include/Caitlyn/__Core/Traits/Constraints/PropertyQueries.h: 27-43"]}
{"id": "C102", "title": "String builders are independent values", "statement": "After any program of constructions, copies, moves, appends and str() calls on any number of StringBuilders, each builder's text is exactly what was put into it and into what it was made from, in order; an operation on one builder does not change another.", "quantifier": "every program with any number of builders", "why_tests_cant": "All interleavings of operations on all builders.", "anchors": ["include/Caitlyn/__Core/String/StringBuilder.h: 24-115"]}
{"id": "C103", "title": "Random numbers stay in range", "statement": "Whatever the engine draws, Random<T>(min, max) with min <= max returns a value from min to max and every such value is possible; without arguments the range is that of the type; RandomBoolean(p) throws invalid_argument for p outside [0, 1] and otherwise is true for a share p of the draws; no arguments lead to undefined behaviour.", "quantifier": "every integer type and interval, every raw number of the generator, every floating-point interval, every probability", "why_tests_cant": "A test draws a few numbers; it cannot see that no raw number leaves the interval.", "anchors": ["include/Caitlyn/__Core/Utility/Random.h: 28-104", "include/Caitlyn/__Core/Numeric/Utility/Limits.h: 28-44"]}
{"id": "C104", "title": "SharedPtr in several threads", "statement": "When several threads use SharedPtr variables of their own that share objects, then for every interleaving of the atomic counter operations nothing undefined happens, no object is deleted while a pointer owns it, each counter is the number of its owners, each thread ends with the pointers it would have had alone, and the last owner deletes the object.", "quantifier": "every number of threads, every program of each, every schedule", "why_tests_cant": "The number of interleavings is unbounded and a test sees one of them.", "anchors": ["include/Caitlyn/__Core/Memory/Types/SharedPointer.h: 30-159"]}
{"id": "C105", "title": "Comparisons of pointers", "statement": "UniquePtr, SharedPtr and RawPtr compare equal to another pointer exactly if both hold the same address and to nullptr exactly if empty; two SharedPtr or a SharedPtr and the lock of a WeakPtr are equal if they share an object; comparing changes nothing.", "quantifier": "every reachable heap, every pair of pointers", "why_tests_cant": "A test compares a few pointers in a few states.", "anchors": ["include/Caitlyn/__Core/Memory/Types/UniquePointer.h: 91-115", "include/Caitlyn/__Core/Memory/Types/SharedPointer.h: 115-139", "include/Caitlyn/__Core/Memory/Types/WeakPointer.h: 90-124", "include/Caitlyn/__Core/Memory/Types/RawPointer.h: 79-103"]}
{"id": "C106", "title": "Named characters are the characters they name", "statement": "Each of the 128 constants of Def has the Unicode name of its code point, and the Char and the String made from it are that character; the literal _char accepts exactly what the constructor accepts.", "quantifier": "every constant, every byte string for the literals", "why_tests_cant": "The tests use a handful of the constants.", "anchors": ["include/Caitlyn/__Core/Char/Defs.h: 26-153", "include/Caitlyn/__Core/String/Defs.h: 26", "include/Caitlyn/__Core/Char/Char.h: 48-55", "include/Caitlyn/__Core/Char/Char.h: 297-300", "include/Caitlyn/__Core/String/String.h: 1028-1031"]}
{"id": "C107", "title": "Character classes and case mappings agree with Unicode", "statement": "IsSpace is White_Space, IsDigit is the category Nd, ToUppercase and ToLowercase are the simple case mappings and IsUppercase and IsLowercase the corresponding classes on the alphabets the functions mention.", "quantifier": "every code point (classes), every pair of letters of Latin, Greek and Cyrillic blocks (case)", "why_tests_cant": "The tests check a few letters; the tables have hundreds of entries.", "anchors": ["include/Caitlyn/__Core/Char/Utility.h: 28-531"]}
{"id": "C108", "title": "Declared tests are registered and run", "statement": "Any tests with different suite and case names can be declared with TEST and TEST_F in one program, in any distribution over translation units; for every order of static initialisation each is registered exactly once with its names and body and run exactly once; the resources of a fixture are released whatever the body does.", "quantifier": "every program (list of translation units), every initialisation order, every fixture and list of bodies", "why_tests_cant": "The names generated by the macros collide or not at compile and link time; the order of initialisation is not under the control of a test.", "anchors": ["include/Caitlyn/__Testing/Macro/Test.h: 23-37", "include/Caitlyn/__Testing/Macro/TestFixture.h: 23-40", "include/Caitlyn/__Testing/Types/TestRegistry.h: 41-51", "include/Caitlyn/__Testing/Types/TestCase.h: 30-46"]}
{"id": "C109", "title": "Strings are read from streams line by line", "statement": "Repeated extraction of a String from a stream yields the lines of its text in order and then fails; what was inserted is extracted again; a line that is not UTF-8 is skipped with an exception.", "quantifier": "every list of lines, every rest, every number of extractions", "why_tests_cant": "The loop that never ends cannot be observed by a test, and the number of texts is unbounded.", "anchors": ["include/Caitlyn/__Core/String/String.h: 1011-1026"]}
{"id": "C110", "title": "Forwarding, moving and signedness of types", "statement": "Forward passes every argument on with its type and value category and never turns an rvalue into an lvalue; MakeMovable makes an rvalue of the same type of every expression; IsSigned and IsUnsigned agree with the standard traits on every type.", "quantifier": "every type and expression of the type grammar, every platform choice", "why_tests_cant": "A compile-time property of infinitely many types.", "anchors": ["include/Caitlyn/__Core/Traits.h: 25-43", "include/Caitlyn/__Core/Traits/Types/Properties.h: 26-34", "include/Caitlyn/__Core/Traits/Constraints/Properties.h: 74-83"]}
{"id": "C111", "title": "Precision and value types in format specifications", "statement": "A specification {:[[fill]align][width][.precision][type]} is read part by part; with type f the value is written with exactly the given number of decimals, rounded, and padded to the width; with the other types the precision has no effect; numbers too large for the width or the precision are reported as FormatError.", "quantifier": "every fill, alignment, width, precision, type, value and surrounding template", "why_tests_cant": "Infinitely many specifications and values; the repository has no test of precisions.", "anchors": ["include/Caitlyn/__Core/String/String.h: 806-973"]}
{"id": "C112", "title": "Conversion of the arguments of Format", "statement": "Every argument of a printable type is converted by exactly one of the functions, to the text it stands for: integers in decimal, booleans as true and false, characters as themselves, strings unchanged, floating point numbers with their value, objects as what their to_string, str or ToString returns, nullptr as null.", "quantifier": "every argument type and value, every class with any combination of the members", "why_tests_cant": "Depends on overload resolution over all types; calls that do not compile cannot be tested.", "anchors": ["include/Caitlyn/__Core/String/String.h: 545-566, 711-757", "include/Caitlyn/__Core/Traits/Constraints/String.h: 25-94"]}
{"id": "C113", "title": "Errors of files", "statement": "A call on a File throws only std::runtime_error, exactly if the file cannot be opened, the position is invalid or the stream has failed before its end; on a file that can be opened writing never throws.", "quantifier": "every state of the object, every content of the file, every call", "why_tests_cant": "Unavailable files and failed streams in every state cannot be enumerated.", "anchors": ["include/Caitlyn/__Core/File/File.h: 34-174"]}
{"id": "C114", "title": "Variables of type Expected behave like variables of a sum type", "statement": "In every program that declares, copies, moves, assigns, destroys and asks Expected variables, every variable holds at each point exactly the value or the error that the statements gave it; copies are independent, std::swap exchanges, and an assignment that throws leaves a usable variable.", "quantifier": "every program of any length over any number of variables, every value and error type, every pattern of throwing constructors", "why_tests_cant": "The programs are unbounded and the union's state after an exception cannot be observed without undefined behaviour.", "anchors": ["include/Caitlyn/__Core/Error/Expected.h: 37-156, 336-353"]}
{"id": "C115", "title": "Format on every template", "statement": "Format returns the template with every doubled bracket halved and every placeholder replaced by its argument as its specification demands, and throws FormatError if a bracket is not matched or a placeholder is not correct.", "quantifier": "every template, every list of arguments, including none", "why_tests_cant": "Templates are arbitrary texts; the outcome of every wrong one has to be known.", "anchors": ["include/Caitlyn/__Core/String/String.h: Format 563-663, 759-973"]}
{"id": "C116", "title": "Parse on every text", "statement": "JsonDocument::Parse gives, on every text, the root and the error that reading the text once from left to right gives; an error in a value, a key or a bracket is reported as the error named after it, no character after the end is read and no exception leaves the function.", "quantifier": "every text of UTF-8 shape, valid JSON or not", "why_tests_cant": "The texts that are no JSON are unbounded, and reading a character after the end of a vector is undefined behaviour that a test need not notice.", "anchors": ["include/Caitlyn/__Serializing/Json/Types/JsonParser.h: 29-434", "include/Caitlyn/__Serializing/Json/Types/Json.h: 107-120"]}
{"id": "C117", "title": "The configuration recognises the platform", "statement": "Config.h defines the macros of the architecture, the operating system, the word size, the compiler and the C++ standard that the translation unit is compiled for, and rejects no supported platform; the version texts name the version of the compiler.", "quantifier": "every compiler, target and standard, given by the macros it predefines; every version number", "why_tests_cant": "A test runs on one platform; the other branches of the preprocessor are not even compiled.", "anchors": ["include/Caitlyn/__Caitlyn/Config.h: 21-181", "include/Caitlyn/__Caitlyn/Application.h: 58-84"]}
{"id": "C118", "title": "The basic types have the widths in their names", "statement": "Int8 to Int64, UInt8 to UInt64, Size and the pointer-sized integers have on every platform the width and the sign that their names promise and are the types of <cstdint> of the same names.", "quantifier": "every supported target and data model", "why_tests_cant": "A test sees the data model of one target only.", "anchors": ["include/Caitlyn/__Caitlyn/Types.h: 26-124"]}
{"id": "C119", "title": "Headers can be included in any order", "statement": "A source file may include any of the headers in any order and any number of times; every header is then read once and after all headers it includes.", "quantifier": "every list of includes, of any length", "why_tests_cant": "The orders of the includes are unbounded; a test uses one.", "anchors": ["include/Caitlyn/__Caitlyn.h: 21", "include/Caitlyn/Caitlyn, include/Caitlyn/String and the other headers for users"]}
{"id": "C120", "title": "Programs of several translation units link", "statement": "A program of any number of translation units, each including any headers of the library, links: no header defines an entity that is neither inline nor a template.", "quantifier": "every program: every number of translation units and every list of includes in each", "why_tests_cant": "The tests of the project are one translation unit each.", "anchors": ["include/Caitlyn/__Caitlyn/Application.h: 129-130"]}
{"id": "C121", "title": "The categories divide the types", "statement": "Every type belongs to exactly one primary category, the composite categories are the unions of primary ones that the C++ standard names, and IsConst and IsVolatile are true exactly of the types that carry the qualifier.", "quantifier": "every type: all qualifiers, pointers, arrays, references, member pointers, functions and classes, nested to any depth", "why_tests_cant": "There are infinitely many types.", "anchors": ["include/Caitlyn/__Core/Traits/Constraints/Primary.h: 25-125", "include/Caitlyn/__Core/Traits/Constraints/Composite.h: 25-65", "include/Caitlyn/__Core/Traits/Constraints/Properties.h: 25-35", "include/Caitlyn/__Core/Traits/Types/Base.h: 44-66"]}
{"id": "C122", "title": "The traits of operations tell the truth about the library's types", "statement": "If a trait says that a type of the library can be constructed, copied, moved, assigned or destroyed, the operation compiles; if it says that the operation does not throw, nothing is thrown in it; and a type that can be copied can be assigned.", "quantifier": "every type built from the library's classes and types of users, nested to any depth, every operation", "why_tests_cant": "The traits answer without instantiating the function bodies, so a wrong answer shows only where the operation is used; there are infinitely many instances of the templates.", "anchors": ["include/Caitlyn/__Core/Traits/Constraints/Operations.h: 25-173", "include/Caitlyn/__Core/Error/Expected.h: 54-123", "include/Caitlyn/__Core/String/StringBuilder.h: 28-60", "include/Caitlyn/__Core/File/File.h: 32-55", "include/Caitlyn/__Serializing/Json/Types/JsonData.h: 49-121, 507-537", "include/Caitlyn/__Core/Memory/Types/UniquePointer.h: 35-70"]}
{"id": "C123", "title": "Sizes of types and comparison of errors", "statement": "SizeOf gives the size of a type in bytes, or eight times as much in bits; errors compare equal exactly if the values in them do.", "quantifier": "every size a type can have; every error type and all errors", "why_tests_cant": "Types of 2^61 bytes exist but no object of them can be made in a test.", "anchors": ["include/Caitlyn/__Core/Memory/Utility/SizeCalculation.h: 25-35", "include/Caitlyn/__Core/Error/Unexpected.h: 59-69"]}
{"id": "C124", "title": "Printing a value alone and in a template agree", "statement": "Write(value) and WriteLine(value) of the console streams and of File write what Write(\"{}\", value) writes, for every value that can be formatted; a text written alone is written as it is.", "quantifier": "every argument type and value, every stream and state", "why_tests_cant": "Which of the five or six overloads is taken depends on the type of the argument; tests cover a few types.", "anchors": ["include/Caitlyn/__Core/IO/Stream.h:65-260", "include/Caitlyn/__Core/File/File.h:176-302", "docs/usage/formatting.md"]}
{"id": "C125", "title": "Values saved in a file are the same when loaded", "statement": "JSON documents in compact form, BigIntegers and BigFloats written to a file with WriteLine, one per line, and read back with ReadLine by another File object and parsed are the same values in the same order; likewise through the console; the same holds when the whole file is read with Read, and for the pretty form of documents.", "quantifier": "every list of documents or numbers of any size", "why_tests_cant": "The property combines the printer, the file, the UTF-8 decoder and the parser over unbounded lists of unbounded values; tests try a few values and each part alone.", "anchors": ["include/Caitlyn/__Core/File/File.h:90-260", "include/Caitlyn/__Serializing/Json/Types/Json.h:107-230", "include/Caitlyn/__Serializing/Json/Types/JsonParser.h:25-433", "include/Caitlyn/__Numeric/Types/BigInteger.h", "include/Caitlyn/__Numeric/Types/BigFloat.h"]}
{"id": "C126", "title": "Substring search takes linear time", "statement": "kmp(pattern, text) compares at most 2(|pattern| + |text|) - 2 pairs of characters, building the failure table included, whether or not the pattern occurs.", "quantifier": "every non-empty pattern and every text", "why_tests_cant": "The bound is amortised over the whole search; the worst case depends on the periods of the pattern, and timing tests measure the machine.", "anchors": ["include/Caitlyn/__Core/String/Algorithms/Kmp.h:29-66"]}
{"id": "C127", "title": "BigInteger's loops run logarithmically often", "statement": "Pow(e) runs its loop once per binary digit of e, Sqrt() of a number with k binary digits at most k times, and Divide finds each quotient digit in at most four rounds.", "quantifier": "all numbers and exponents, of any size", "why_tests_cant": "The numbers of rounds are not visible from outside and the claim is about all sizes.", "anchors": ["include/Caitlyn/__Numeric/Types/BigInteger.h:216-335"]}
{"id": "C128", "title": "Parsing JSON needs a bounded stack", "statement": "There is a number of nested calls that suffices for JsonDocument::Parse on every text.", "quantifier": "every text, every stack size", "why_tests_cant": "The depth of recursion follows the nesting of the text, which is unbounded; tests use shallow documents.", "anchors": ["include/Caitlyn/__Serializing/Json/Types/JsonParser.h:32-243"]}
{"id": "C129", "title": "Running out of memory while copying a JSON value leaves nothing behind", "statement": "If an allocation fails while a JsonData is copied, no node made for the copy stays in memory; if it fails during an assignment the variable keeps its old value.", "quantifier": "every value, every choice of the allocations that fail", "why_tests_cant": "Allocations do not fail in tests, and the number of points where they could grows with the value.", "anchors": ["include/Caitlyn/__Serializing/Json/Types/JsonData.h:54-57", "include/Caitlyn/__Serializing/Json/Types/JsonData.h:100-109", "include/Caitlyn/__Serializing/Json/Types/JsonData.h:469-505", "include/Caitlyn/__Serializing/Json/Types/JsonData.h:539-560"]}
{"id": "C130", "title": "Initialize has no effect if it runs out of memory", "statement": "If Application::Initialize throws std::bad_alloc, the object is as before, no copy of an argument stays in memory, and a later call that succeeds gives exactly the arguments passed to it.", "quantifier": "all argument lists, all sequences of calls, every choice of the allocations that fail", "why_tests_cant": "Allocations do not fail in tests and the object is a singleton that one process can initialise once.", "anchors": ["include/Caitlyn/__Caitlyn/Application.h:45-56", "include/Caitlyn/__Caitlyn/Application.h:87-107"]}
{"id": "C131", "title": "The values of the enumerations agree with what they name", "statement": "The enumerators of DataSize are ordered as the units they name, those of Radix have their base as value, and those of Sign are the sign bit.", "quantifier": "all enumerators, all pairs", "why_tests_cant": "Nothing in the project uses the values yet; no test mentions them.", "anchors": ["include/Caitlyn/__Core/Memory/Types/DataSize.h:25-61", "include/Caitlyn/__Core/Numeric/Types/Radix.h:25-31", "include/Caitlyn/__Core/Numeric/Types/Sign.h:25-29"]}
{"id": "C132", "title": "Running out of memory in SharedPtr harms no pointer", "statement": "If making a counter fails in the constructor or in Reset, the object passed is deleted, every pointer stays as it was, and no object is deleted while a pointer owns it.", "quantifier": "all histories of operations in which constructions and Resets may fail", "why_tests_cant": "Allocations do not fail in tests, and the damage shows only when later pointers go out of scope.", "anchors": ["include/Caitlyn/__Core/Memory/Types/SharedPointer.h:40-42", "include/Caitlyn/__Core/Memory/Types/SharedPointer.h:142-160"]}
{"id": "C133", "title": "A type is trivially copyable exactly if it owns nothing", "statement": "IsTriviallyCopyable holds for a type built from the library's classes exactly if a value of it owns no memory, file or object, so that copying its bytes is both allowed where it is safe and never allowed where it is not.", "quantifier": "all types built from the library's classes, nested to any depth, with any user-defined types in them", "why_tests_cant": "The types are infinitely many, and a test would have to copy bytes of a type for which the trait is wrong.", "anchors": ["include/Caitlyn/__Core/Traits/Constraints/Properties.h:36-46", "include/Caitlyn/__Core/Traits/Constraints/Operations.h:31-161", "include/Caitlyn/__Core/Memory/Types/RawPointer.h:36-57", "include/Caitlyn/__Core/Error/Expected.h:54-123"]}
{"id": "C134", "title": "The detectors of members agree with what can be called", "statement": "Has_begin_Type<T> and its relatives are true exactly if T offers the member for its objects, and it makes no difference whether T is a class or a reference to one.", "quantifier": "all classes with any sets of overloads, all detectors, const or not, references or not", "why_tests_cant": "The argument is a type; a test names finitely many classes and would not think of references or qualified members.", "anchors": ["include/Caitlyn/__Core/Traits/Types/Collections.h:26-136"]}
{"id": "C135", "title": "Every header can be compiled by itself and in every language standard", "statement": "A source file that includes any headers of the library, in any order, is accepted in every language standard: whatever the body of a header uses has been declared before, every template that is specialised exists, and what a macro expands to has been declared.", "quantifier": "all lists of headers, all language standards, file systems that do and do not ignore the case of letters", "why_tests_cant": "There are infinitely many lists of headers and several standards; a project's own tests always include the headers in one order and are built with one standard.", "anchors": ["include/Caitlyn/__Core/Traits/Types/Primary.h:69-74", "include/Caitlyn/__Testing/Types/TestFailMessage.h:18-56", "include/Caitlyn/__Serializing/Json/Defs.h:18-23", "include/Caitlyn/__Testing/Types.h:18-26"]}
{"id": "C136", "title": "UniquePtr members can be assigned like std::unique_ptr", "statement": "When objects own further objects through UniquePtr members (lists, trees), p = std::move(q) makes p own what q owned, leaves q null, destroys exactly what p owned before and is defined for all p and q, in particular when q is a member of the object p points to.", "quantifier": "all programs over variables and members reached through any number of ->, objects with any number of members", "why_tests_cant": "The graphs of owners and the programs are unbounded, and a use of freed memory usually goes unnoticed.", "anchors": ["include/Caitlyn/__Core/Memory/Types/UniquePointer.h:43-69", "include/Caitlyn/__Core/Memory/Types/UniquePointer.h:81-88"]}
{"id": "C137", "title": "Owned objects are destroyed exactly when their owner lets go of them", "statement": "Destroying, resetting or overwriting a UniquePtr destroys exactly the objects it owns, directly or through members of others, each once; when no variable is left, no object is left.", "quantifier": "all programs over variables and members reached through any number of ->, objects with any number of members", "why_tests_cant": "A test looks at finitely many graphs; leaks are invisible to it.", "anchors": ["include/Caitlyn/__Core/Memory/Types/UniquePointer.h:48-51", "include/Caitlyn/__Core/Memory/Types/UniquePointer.h:60-69", "include/Caitlyn/__Core/Memory/Types/UniquePointer.h:118-125"]}
{"id": "C138", "title": "Destroying an object takes a bounded part of the stack", "statement": "The number of destructors that run inside one another when a UniquePtr goes out of scope has a bound that does not depend on the number of objects it owns.", "quantifier": "all programs that build structures of owned objects", "why_tests_cant": "The depth grows with the structure; tests build small ones.", "anchors": ["include/Caitlyn/__Core/Memory/Types/UniquePointer.h:48-51"]}
{"id": "C139", "title": "Tests can register further tests", "statement": "A test executed by RunAll may call AddTest. RunAll then still returns, has executed every registered test exactly once, those registered during the run included, and its report counts and lists only tests that were executed.", "quantifier": "all sequences of registrations before the run, all registrations made by any execution, all outcomes of tests", "why_tests_cant": "Which registrations go wrong depends on the order of the names of suites and on the iterators of a growing vector; invalid iterators often go unnoticed.", "anchors": ["include/Caitlyn/__Testing/Types/TestRegistry.h:47-51 (AddTest)", "include/Caitlyn/__Testing/Types/TestRegistry.h:53-109 (RunAll)", "include/Caitlyn/__Testing/Types/TestRegistry.h:161-182 (LogSummary)"]}
{"id": "C140", "title": "Parsing JSON takes time proportional to the length of the text", "statement": "The work of JsonDocument::Parse — characters of the text copied, JsonData objects copied, keys compared — is bounded by a constant times the length of the text, for well-formed and for malformed texts.", "quantifier": "all texts; all values; all results of the conversions of floating point numbers", "why_tests_cant": "Tests with small documents cannot tell a linear from a quadratic parser, and a bound that holds for every text cannot be measured.", "anchors": ["include/Caitlyn/__Serializing/Json/Types/JsonParser.h:71-74 (GetData)", "include/Caitlyn/__Serializing/Json/Types/JsonParser.h:158, 212-213 (result[key], Append)", "include/Caitlyn/__Serializing/Json/Types/JsonParser.h:247, 349, 354 (json_.str())", "include/Caitlyn/__Serializing/Json/Types/JsonData.h:156-172 (operator[])", "include/Caitlyn/__Serializing/Json/Types/JsonData.h:220-228 (Append)"]}
{"id": "C141", "title": "Every call on a File does what a simple machine says", "statement": "In every history of calls on a File, exceptions caught or not, each result and the content of the file are those of a machine that knows only the content, whether the object is open, the position where ReadLine goes on, and whether reading has met the end or failed. The same holds for programs with several File objects of one file: a call depends on the content and on the earlier calls on its own object only.", "quantifier": "all contents, all histories of Open, Close, Erase, IsEof, SetPosition, GetPosition, Read, ReadLine, Write, WriteLine, Append and AppendLine, all programs that make, use and destroy objects", "why_tests_cant": "The state bits of a stream interact over many calls; tests try a few orders of calls of the infinitely many.", "anchors": ["include/Caitlyn/__Core/File/File.h:57-174 (Open to ReadLine)", "include/Caitlyn/__Core/File/File.h:176-442 (Write to AppendLine)"]}
{"id": "C142", "title": "Application is initialised once, in threads and before main", "statement": "Of several calls of Initialise and Initialize, also in different threads, exactly one returns and the others throw; GetArgs has the arguments of that call. It returns a pointer to the object, also if it is made before main, during the initialisation of other variables.", "quantifier": "all numbers of threads, all arguments, all interleavings; all histories of calls before and after the object is made", "why_tests_cant": "The wrong interleavings are rare and a test cannot choose them; the order of static initialisation is not chosen by the test.", "anchors": ["include/Caitlyn/__Caitlyn/Application.h:34-56 (Initialise, Initialize)", "include/Caitlyn/__Caitlyn/Application.h:87-99 (SetArgs)", "include/Caitlyn/__Caitlyn/Application.h:129-130 (application_, initialized_)"]}
{"id": "C143", "title": "Including the library keeps the order of input and output", "statement": "A program that uses functions of C such as printf and fgets together with the streams of the library has its output in the order in which it was written, and reads its input line by line, whichever functions it uses.", "quantifier": "all programs of such calls, all inputs, all moments at which buffers are emptied, all sizes in which the system gives the input", "why_tests_cant": "The order depends on when buffers are full, which depends on the device; tests with a terminal behave differently from those with a pipe.", "anchors": ["include/Caitlyn/__Caitlyn/Application.h:79-85 (constructor)", "include/Caitlyn/__Caitlyn/Application.h:110-117 (configure)", "include/Caitlyn/__Core/IO/Stream.h:31-42 (ReadLine)", "include/Caitlyn/__Core/IO/Stream.h:65-126 (Write, WriteLine)"]}
{"id": "C144", "title": "The message of a failing comparison shows the operands", "statement": "Any two operands that can be compared and printed can be given to ASSERT_EQ and the other comparing macros, and if the comparison fails, the message shows the values of the operands.", "quantifier": "all operands built from integer expressions with binary operators, all meanings of the operators; all operands that depend on the names in scope and on the state, all orders of evaluation that C++11 allows", "why_tests_cant": "The macros are tested with simple operands, for which the missing parentheses, the name of the local stream and the order of evaluation do not matter; and operands for which they do are rejected by the compiler or give a message nobody compares.", "anchors": ["include/Caitlyn/__Testing/Macro/Assert.h:32-78 (ASSERT_EQ, ASSERT_NE, ASSERT_LT, ASSERT_LE, ASSERT_GT, ASSERT_GE)", "include/Caitlyn/__Testing/Macro/Assert.h:80-91 (ASSERT_EQ_PRINTABLE)"]}
{"id": "C145", "title": "Programs with BigInteger compute with integers", "statement": "A program that computes with variables of type BigInteger (literals, operators, Abs, Sqr, Sqrt, Pow, copies and moves, comparisons, ToString, Size), catching the exceptions, gives what the same program gives with integers of unlimited size.", "quantifier": "all programs of such statements over any number of variables, all numbers", "why_tests_cant": "Each operation is tested on its own with fresh operands; a wrong sign or a zero with a sign flag goes unnoticed in one result, since it prints as it should, and does harm in the next operation.", "anchors": ["include/Caitlyn/__Numeric/Types/BigInteger.h:83-110 (copy, move)", "include/Caitlyn/__Numeric/Types/BigInteger.h:113-335 (arithmetic)", "include/Caitlyn/__Numeric/Types/BigInteger.h:338-402 (Size, comparison, ToString, RemoveLeadingZeros)", "include/Caitlyn/__Numeric/Types/BigInteger.h:411-470 (operators)"]}
{"id": "C146", "title": "Programs with BigFloat compute with decimal fractions", "statement": "A program that computes with variables of type BigFloat (literals, operators, Abs, Sqr, Sqrt, Pow, copies and moves, comparisons, ToString, Size), catching the exceptions, ends, and gives what the same program gives with decimal fractions.", "quantifier": "all programs of such statements over any number of variables, all numbers of fewer than 2^56 digits", "why_tests_cant": "The results of one operation are operands of the next; numbers with a fraction that is a negative integer or lacks its leading zeros come about only in programs, and an operation that never ends is not noticed by tests of the others.", "anchors": ["include/Caitlyn/__Numeric/Types/BigFloat.h:70-101 (copy, move)", "include/Caitlyn/__Numeric/Types/BigFloat.h:104-301 (arithmetic, Abs, Pow, Sqr, Sqrt)", "include/Caitlyn/__Numeric/Types/BigFloat.h:303-412 (Size, comparison, ToString, operators)"]}
{"id": "C147", "title": "Programs with String compute with texts", "statement": "A program that computes with variables of type String (literals, concatenation, Append, PushBack, Insert, Substring, At, operator[], copies and moves, case conversion, comparison, searching), catching out_of_range, gives what the same program gives with sequences of code points; everything it shows is UTF-8.", "quantifier": "all programs of such statements over any number of variables, all texts without U+0000, all indices", "why_tests_cant": "A statement is tested on fresh arguments of its own; strings that alias, are empty, or contain the results of earlier case conversions come about in programs only, of which there are infinitely many.", "anchors": ["include/Caitlyn/__Core/String/String.h:52-140 (constructors, assignment)", "include/Caitlyn/__Core/String/String.h:142-180 (size, operator[], At)", "include/Caitlyn/__Core/String/String.h:242-363 (concatenation, Append, comparison)", "include/Caitlyn/__Core/String/String.h:366-447 (searching, Substring, ByteCount)", "include/Caitlyn/__Core/String/String.h:458-537 (IsEmpty, str, Insert, case conversion)"]}
{"id": "C148", "title": "Texts do not depend on the locale", "statement": "What JsonData::ToString writes, what JsonDocument::Parse then reads, what BigFloat(double) holds and what String::Format writes for a double are the same whatever locale the program has set with setlocale or std::locale::global.", "quantifier": "every punctuation of numbers (decimal point, separator, group sizes), every JSON value and option, every int64, every finite double, every precision", "why_tests_cant": "Tests run in the classic locale; the streams and conversions of the library take the locale of the process.", "anchors": ["include/Caitlyn/__Serializing/Json/Types/JsonData.h:342-347", "include/Caitlyn/__Serializing/Json/Types/JsonData.h:449-459", "include/Caitlyn/__Numeric/Types/BigFloat.h:33-35", "include/Caitlyn/__Core/String/String.h:723-727", "include/Caitlyn/__Core/String/String.h:910-947"]}
{"id": "C149", "title": "Running out of memory while a JSON value is built or changed harms no variable and leaves nothing behind", "statement": "When an allocation fails in a statement on JSON values (an assignment of a scalar, a text, another value or a moved value, x[key], Append), std::bad_alloc is thrown, every variable is either as before or as the statement says, the program can go on and end normally, and after the variables are destroyed no node is left.", "quantifier": "every program of such statements on any number of variables, every schedule of failing allocations", "why_tests_cant": "Tests do not make chosen allocations fail, and the damage shows only in later statements or destructors.", "anchors": ["include/Caitlyn/__Serializing/Json/Types/JsonData.h:100-171", "include/Caitlyn/__Serializing/Json/Types/JsonData.h:218-226", "include/Caitlyn/__Serializing/Json/Types/JsonData.h:469-590"]}
{"id": "C150", "title": "Running out of memory never changes a text or a result silently", "statement": "When the buffer of a stream used inside the library cannot grow, the call throws std::bad_alloc; otherwise it gives what it gives with enough memory: String::str and the comparisons built on it, File::Write and the name of the file opened, StringBuilder, ToString of JSON values and JsonDocument::Parse.", "quantifier": "every text, value and document, every size at which each of the streams made on the way fails to grow", "why_tests_cant": "Tests do not make the buffers of streams inside the library fail, and the result looks like a normal one.", "anchors": ["include/Caitlyn/__Core/String/String.h:305-333", "include/Caitlyn/__Core/String/String.h:473-482", "include/Caitlyn/__Core/String/StringBuilder.h:63-89", "include/Caitlyn/__Serializing/Json/Types/JsonData.h:342-467", "include/Caitlyn/__Serializing/Json/Types/JsonParser.h:245-403"]}
{"id": "C151", "title": "A reference into a JSON value stays valid until what it refers to is overwritten or destroyed", "statement": "A reference obtained with operator[] or At refers to the same part of the same value after any statements that do not assign to the value around it or destroy it: Append and operator[] on the values around it never invalidate it, looking something up never invalidates it, and where the value around it is moved, it refers to the part in its new place. Statements through references do what they do on the places that the references have.", "quantifier": "every program of declarations, copies, moves, assignments, operator[], Append and ends of scopes, on variables, their parts, references and parts of what they refer to", "why_tests_cant": "Tests use references at once; whether one is still valid depends on all statements since, and reading through a dangling one often seems to work.", "anchors": ["include/Caitlyn/__Serializing/Json/Types/JsonData.h:100-226", "include/Caitlyn/__Serializing/Json/Types/JsonData.h:469-595"]}
{"id": "C152", "title": "Threads can use the console at the same time", "statement": "Calls of OutputStream, ErrorStream, LogStream and InputStream in different threads do not disturb each other: no program that makes them has undefined behaviour for that reason, and each stream gets the text of each call whole, a line with its end, the calls of each thread in their order.", "quantifier": "every number of threads, every sequence of calls and of mutex operations in each, every execution", "why_tests_cant": "A data race shows in few executions or never; no test runs all of them.", "anchors": ["include/Caitlyn/__Core/IO/Stream.h:28-265", "include/Caitlyn/__Caitlyn/Application.h:110-129"]}
{"id": "C153", "title": "Running out of memory in a String operation changes no String", "statement": "When an allocation fails in an operation on Strings (construction from a literal, copy, move, +, Substring, PushBack, Append, +=, Insert, Clear), std::bad_alloc is thrown, every String has the text it had before, no memory is lost, and the program can go on; when no allocation fails, the operations give their texts, however the storage grows.", "quantifier": "every program of such operations on any number of variables and references to characters, every choice of the allocations that fail, every growth policy of the vector", "why_tests_cant": "Tests do not make allocations fail; which statement one fails in depends on capacities that the standard does not fix.", "anchors": ["include/Caitlyn/__Core/String/String.h:55-82", "include/Caitlyn/__Core/String/String.h:118-178", "include/Caitlyn/__Core/String/String.h:242-303", "include/Caitlyn/__Core/String/String.h:419-428", "include/Caitlyn/__Core/String/String.h:485-516"]}
{"id": "C154", "title": "A reference to a character of a String stays valid until the String is assigned or cleared", "statement": "A reference obtained with operator[] or At refers to the character with the same index until the String is assigned or cleared: PushBack, Append, += and Insert after it keep it valid, it can be passed to them for the same String, a failed operation does not end it, and a move carries it to the new String.", "quantifier": "every program of String operations and references to characters, every choice of the allocations that fail, every growth policy of the vector", "why_tests_cant": "Whether a reference is still valid depends on capacities at run time; reading through one that is not valid often seems to work.", "anchors": ["include/Caitlyn/__Core/String/String.h:157-178", "include/Caitlyn/__Core/String/String.h:242-303", "include/Caitlyn/__Core/String/String.h:485-516"]}
{"id": "C155", "title": "A JSON value can be read by several threads at the same time", "statement": "When no thread assigns to a JSON value, any number of threads can look up its members and items and ask for types, sizes, values and texts at the same time: there is no data race, the value stays as it is, and each thread gets the answers that it would get alone.", "quantifier": "every value, any number of threads with any queries, every interleaving of their steps", "why_tests_cant": "A test runs few of the interleavings, and a data race often shows no effect.", "anchors": ["include/Caitlyn/__Serializing/Json/Types/JsonData.h:156-347", "include/Caitlyn/__Serializing/Json/Types/JsonData.h:562-595", "include/Caitlyn/__Serializing/Json/Types/Json.h:96-104"]}
{"id": "C156", "title": "An Expected can be assigned a part of what it holds", "statement": "Variables of type Expected whose values contain further objects of type Expected behave like variables of a recursive sum type: after `x = y.Get().kids.at(i)…` the variable x holds what the right side held before, also if the right side is a part of x, and an exception of Get or at leaves all variables unchanged.", "quantifier": "every program of declarations, copies, assignments from any part of any variable, and ends of scope; values nested to any depth", "why_tests_cant": "Assigning a part of a variable to it reads memory that was given back, which often still holds the old bytes, so that a test passes.", "anchors": ["include/Caitlyn/__Core/Error/Expected.h:58-86", "include/Caitlyn/__Core/Error/Expected.h:120-147", "include/Caitlyn/__Core/Error/Expected.h:336-347"]}
{"id": "C157", "title": "Numbers drawn one after the other are free of each other", "statement": "Every sequence of numbers within the range can be the result of successive calls of Random with that range, and every sequence of Booleans the result of successive calls of RandomBoolean: what one call returns does not fix what the next returns, however fast they follow each other.", "quantifier": "every integer type and range, any number of calls, every sequence of clock readings, every engine", "why_tests_cant": "Whether two calls see the same reading of the clock depends on the machine; a test sees the sequences of one run only.", "anchors": ["include/Caitlyn/__Core/Utility/Random.h:30-73", "include/Caitlyn/__Core/Utility/Random.h:96-104"]}
{"id": "C158", "title": "The traits of classes tell which objects an owning pointer can hold", "statement": "HasVirtualDestructor, IsPolymorphic, IsAbstract, IsEmpty, BaseOf and Convertible describe the tree of base classes of a class and are consistent with each other; UniquePtr<B>{new D} can be written exactly if D is not abstract and Convertible<D*, B*>(), and when the owner lets go of the object all its parts are destroyed once, derived classes before their bases, if D is B or HasVirtualDestructor<B>(), and only then; TEST_F can be used with a fixture class exactly if Run is its only pure function.", "quantifier": "every class with any bases (without virtual inheritance), every program with variables of type UniquePtr<B>, every fixture class", "why_tests_cant": "There are infinitely many class hierarchies, and deleting through a pointer to a base without virtual destructor often seems to work.", "anchors": ["include/Caitlyn/__Core/Traits/Constraints/Properties.h:48-70", "include/Caitlyn/__Core/Traits/Constraints/Operations.h:169-173", "include/Caitlyn/__Core/Traits/Constraints/Relationships.h:37-47", "include/Caitlyn/__Core/Memory/Types/UniquePointer.h:35-125", "include/Caitlyn/__Testing/Macro/TestFixture.h:23-40"]}
{"id": "C159", "title": "The operations of Expected have the types of those of a sum type", "statement": "Map and MapError may change the type of the value and of the error, AndThen and OrElse may be given a function whose result is an Expected with another type of value or error, UnwrapOr, UnwrapOrElse, UnwrapOrDefault, Filter, Fold, OnError, Customize and Inspect can be used whenever the types fit: every such use compiles and has the expected type.", "quantifier": "every value type and error type, every result type of the functions passed, every set of conversions between users' types", "why_tests_cant": "A use that does not compile cannot be part of a test, and there are infinitely many types.", "anchors": ["include/Caitlyn/__Core/Error/Expected.h:158-315", "include/Caitlyn/__Core/Error/Expected.h:37-67", "include/Caitlyn/__Core/Error/Unexpected.h:25-41"]}
{"id": "C160", "title": "Built-in values given for objects of the library keep their meaning", "statement": "A number, truth value or character of a built-in type that is given where a Char, String, BigInteger, BigFloat, StringBuilder or JsonData is expected (T x(v), an argument, an operand) stands for the same number, truth value or character there; every integer can be given for a BigInteger, a BigFloat and a JSON value; null pointers are refused by the compiler or reported.", "quantifier": "every class of the library with such constructors, every built-in integer type and every value of it, the literal 0, nullptr, std::string, every overloaded function", "why_tests_cant": "Which constructor is chosen depends on the type of the argument, and a use that does not compile cannot be part of a test; the values that are changed are rare.", "anchors": ["include/Caitlyn/__Core/Char/Char.h:39-64", "include/Caitlyn/__Core/String/String.h:55-80", "include/Caitlyn/__Core/String/String.h:242-363", "include/Caitlyn/__Core/String/StringBuilder.h:33-52", "include/Caitlyn/__Numeric/Types/BigInteger.h:39-51", "include/Caitlyn/__Numeric/Types/BigFloat.h:33-41", "include/Caitlyn/__Serializing/Json/Types/JsonData.h:64-90"]}
{"id": "C161", "title": "The operators of the library are found wherever its objects are used", "statement": "An operator that a class of the library offers can be used at every place where the class can: in functions of every namespace and through the templates of the standard library (std::sort, std::find, std::accumulate, iterators of streams); the traits HasXxxOperatorType say whether the expression compiles, the same in all translation units of a program; an operator that a class does not offer does not compile.", "quantifier": "every class of the library with operators, every operator, every source file (headers in any order), every namespace around the expression", "why_tests_cant": "Whether an expression compiles depends on the order of the headers and on the declarations around it; tests are written in one order and in the global namespace.", "anchors": ["include/Caitlyn/__Core/Traits/Types/Operators.h:27-215", "include/Caitlyn/__Numeric/Types/BigInteger.h:411-470", "include/Caitlyn/__Numeric/Types/BigFloat.h:363-417", "include/Caitlyn/__Core/String/String.h:1011-1026", "include/Caitlyn/__Core/Char/Char.h:291-295", "include/Caitlyn/__Serializing/Json/Types/Json.h:219-231", "include/Caitlyn/__Core/Error/Unexpected.h:60-71"]}
{"id": "C162", "title": "A plain pointer given where an owning pointer is expected is only looked at", "statement": "Comparing a UniquePtr or SharedPtr with a plain pointer (x == r, x != r), comparing a WeakPtr with a SharedPtr, and giving a plain pointer to a function that takes an owning pointer by reference to const has no effect but its result: the comparison says whether the pointers are equal, no object is destroyed, no memory is lost, and the program can go on as if it had not happened.", "quantifier": "every program with UniquePtr variables and plain pointers, every object and pointer compared, every continuation; SharedPtr and WeakPtr in every state", "why_tests_cant": "A comparison that destroys the object still returns the right result; the damage shows later, when the owner's scope ends, if at all.", "anchors": ["include/Caitlyn/__Core/Memory/Types/UniquePointer.h:37-51", "include/Caitlyn/__Core/Memory/Types/UniquePointer.h:97-105", "include/Caitlyn/__Core/Memory/Types/SharedPointer.h:40-58", "include/Caitlyn/__Core/Memory/Types/SharedPointer.h:121-129", "include/Caitlyn/__Core/Memory/Types/WeakPointer.h:39-41", "include/Caitlyn/__Core/Memory/Types/WeakPointer.h:90-98"]}
{"id": "C163", "title": "What can be given to a constructor can be assigned, and Assignable says which", "statement": "For a variable x of Char, String, BigInteger, BigFloat, StringBuilder, JsonData or JsonDocument and an expression v of a built-in type, a std::string, nullptr or an object of the library: x = v compiles exactly if T x(v) does, and takes v in the same way; a text can be assigned and given in each of its types (const char*, std::string, String); Assignable<T&, U>() says whether x = v compiles for a v of type U; no assignment that compiles reads through a null pointer; NothrowAssignable and TriviallyAssignable say what the operators promise.", "quantifier": "every target class, every type of expression, before and after C++23", "why_tests_cant": "A test contains the assignments that compile; one that does not compile cannot be written in it, and one that reads through a null pointer crashes or not.", "anchors": ["include/Caitlyn/__Core/Traits/Constraints/Operations.h:97-113", "include/Caitlyn/__Serializing/Json/Types/JsonData.h:64-90", "include/Caitlyn/__Serializing/Json/Types/JsonData.h:122-153", "include/Caitlyn/__Serializing/Json/Types/Json.h:38-65", "include/Caitlyn/__Core/Char/Char.h:67-97", "include/Caitlyn/__Core/String/String.h:121-138"]}
{"id": "C164", "title": "A number given as count, position or index is this number, and the character beside it this character", "statement": "String(n, c), s.Append(n, c), s.Insert(p, n, c), s.Insert(p, x), json[i], json.At(i) and document[k] take every integer type for the count, the position or the index, and a char, a code point or a Char for the character. The result has n copies of the character that Char(c) is, at the position p; String(n, c) is what Append(n, c) makes of an empty text; no call that compiles reads through a null pointer; a negative count or position is reported.", "quantifier": "every pair (triple) of integer types and all their values, every other argument that overload resolution distinguishes", "why_tests_cant": "A test uses int counts and ASCII characters; the overload that is chosen for other types is another one, and calls that do not compile cannot be written in a test.", "anchors": ["include/Caitlyn/__Core/String/String.h:83-108", "include/Caitlyn/__Core/String/String.h:280-298", "include/Caitlyn/__Core/String/String.h:485-516", "include/Caitlyn/__Serializing/Json/Types/JsonData.h:156-217", "include/Caitlyn/__Serializing/Json/Types/Json.h:96-104", "include/Caitlyn/__Core/Char/Char.h:39-65"]}
{"id": "C165", "title": "Running out of memory in a statement on large numbers changes no number", "statement": "When an allocation fails in a statement on variables of type BigInteger or BigFloat (literals, operators, Abs, Sqr, Sqrt, Pow, copies, ToString), std::bad_alloc is thrown and every variable has the number it had before: the program gives what it gives without the statements that threw. When no allocation fails, the statements give what they give in C145 and C146.", "quantifier": "every program of such statements over any number of variables, every choice of the allocations that fail, every size of the storage of the variables, vectors that release their storage before or after they get new one", "why_tests_cant": "An allocation fails at a place that a test cannot choose, and a number that is half the old and half the new one looks like any other.", "anchors": ["include/Caitlyn/__Numeric/Types/BigFloat.h:81-103", "include/Caitlyn/__Numeric/Types/BigInteger.h:91-110"]}
{"id": "C166", "title": "The functions of the library can be used in destructors of static objects", "statement": "A call of a function of the library returns in the destructor of an object of static storage what it returns in main: classification and change of case of code points, ToUppercase/ToLowercase of texts, trimming (FindFirstNonSpace/FindLastNonSpace), JsonDocument::Parse and the registry of tests.", "quantifier": "every program of calls and static objects, in every order, every destructor that makes any calls", "why_tests_cant": "A test ends before the static objects of its program are destroyed; reading a table that has been destroyed often gives the right answer.", "anchors": ["include/Caitlyn/__Core/Char/Utility.h:28-58", "include/Caitlyn/__Core/Char/Utility.h:137-147", "include/Caitlyn/__Core/Char/Utility.h:252-263", "include/Caitlyn/__Core/Char/Utility.h:382-392", "include/Caitlyn/__Core/Char/Utility.h:457-463", "include/Caitlyn/__Core/String/String.h:519-537", "include/Caitlyn/__Core/String/Utility.h:155-177", "include/Caitlyn/__Testing/Types/TestRegistry.h:41-45", "include/Caitlyn/__Serializing/Json/Types/JsonParser.h:32-58"]}
{"id": "C167", "title": "Printing a JSON value needs no more memory and work than its text", "statement": "ToString(false, n) of a JSON value returns the same text for every n and needs no memory for spaces; ToString(true, n) makes as many spaces as it writes, up to a constant factor. The stack needed is in proportion to how deep the values lie in each other, and what the parser could read with a stack can be printed with it.", "quantifier": "every JSON value, both values of mangling, every number of spaces, every amount of memory and stack", "why_tests_cant": "The text is right; the strings of spaces that are made and thrown away show only for values that are deep or numbers of spaces that are large, in time and memory.", "anchors": ["include/Caitlyn/__Serializing/Json/Types/JsonData.h:342-467"]}
{"id": "C168", "title": "An Expected holds what it is given, whatever the types of value and error", "statement": "For all types T and E that can be copied, an Expected<T, E> made from a value, from an error or from another Expected, by copy, move, assignment or Map, holds a value equal to the one given: programs with such variables compute with a sum type.", "quantifier": "every type T and E (classes without, with an unusable and with a usable constructor for lists), every program of constructions, copies, moves, assignments and Map", "why_tests_cant": "Tests use numbers and texts; the types for which braces do something else than copying are those nobody thinks of, and the code compiles for them.", "anchors": ["include/Caitlyn/__Core/Error/Expected.h:38-117", "include/Caitlyn/__Core/Error/Expected.h:158-167", "include/Caitlyn/__Core/Error/Unexpected.h:29-48"]}
{"id": "C169", "title": "JSON written in the source is the document of its characters", "statement": "JSON_STRING(text) gives the document that Parse gives for the characters of text as they are written in the source, however the source is laid out.", "quantifier": "every text between the parentheses of the macro, with and without trigraphs replaced by the compiler", "why_tests_cant": "Each use of the macro is compiled into a test; the texts for which the preprocessor changes what the parser reads are in none of them.", "anchors": ["include/Caitlyn/__Serializing/Json/Defs.h:21", "include/Caitlyn/__Serializing/Json/Types/Json.h:196-199", "include/Caitlyn/__Serializing/Json/Types/Json.h:107-120"]}
{"id": "C170", "title": "Find, ReverseFind and Contains take linear time", "statement": "The number of characters that Find, ReverseFind and Contains compare is at most proportional to the lengths of the text and of the text that is looked for, as for the substring search KMP of the library.", "quantifier": "every text, every text looked for, every position", "why_tests_cant": "Tests look for short texts in short texts; how the work grows is a statement about all lengths.", "anchors": ["include/Caitlyn/__Core/String/String.h:386-416"]}
{"id": "C171", "title": "Destroying and copying a JSON value takes a bounded part of the stack", "statement": "There is a number of calls inside one another of the destructor, and of the copy constructor, of JsonData that suffices for every value that a program makes.", "quantifier": "every program of declarations, copies, moves, assignments, operator[], Append and ends of scopes; every text that is parsed", "why_tests_cant": "Tests use values a few levels deep; the number of levels is unbounded, and the failure is a stack overflow in a destructor that no test of the API provokes.", "anchors": ["include/Caitlyn/__Serializing/Json/Types/JsonData.h:54-57, 92-95", "include/Caitlyn/__Serializing/Json/Types/JsonData.h:469-505 (CopyUnion)", "include/Caitlyn/__Serializing/Json/Types/JsonData.h:539-560 (DestroyUnion)"]}
{"id": "C172", "title": "Multiplication and division of BigInteger take time in proportion to the product of the numbers of digits", "statement": "There is a number k such that Multiply and Divide of an m-digit and an n-digit number (not zero) run the bodies of their loops over digits, and move digits to make room for others, at most k m n times.", "quantifier": "every two BigInteger values, every sign, every length", "why_tests_cant": "Tests use short numbers and see results, not work; that the quotient is moved as a whole for every digit of it shows only in how the time grows with the length.", "anchors": ["include/Caitlyn/__Numeric/Types/BigInteger.h:195-214 (Multiply)", "include/Caitlyn/__Numeric/Types/BigInteger.h:216-257 (Divide)", "include/Caitlyn/__Numeric/Types/BigInteger.h:160-193 (Subtract)"]}
{"id": "C173", "title": "Powers and roots are computed with numbers no longer than argument and result", "statement": "Every number that Pow or Sqrt of a BigInteger forms on the way has at most as many digits as the longer of argument and result.", "quantifier": "every BigInteger, every exponent that is not negative", "why_tests_cant": "Tests see the result; a number twice as long that is computed and thrown away costs memory and time but changes no result.", "anchors": ["include/Caitlyn/__Numeric/Types/BigInteger.h:277-296 (Pow)", "include/Caitlyn/__Numeric/Types/BigInteger.h:303-335 (Sqrt)"]}
{"id": "C174", "title": "A reference to the value of an Expected stays valid as long as the Expected exists and holds a value", "statement": "After const T& r = e.Get() (or Expect, or const E& r = e.GetError() or ExpectError) reading r gives what e holds, as long as e exists and holds a value (an error).", "quantifier": "every program of declarations, ends of scopes, copy and move assignments of Expected variables and bindings and readings of references; every value and error type without const and reference members", "why_tests_cant": "A reference to an object that was destroyed often still shows what was there; tests read references at once.", "anchors": ["include/Caitlyn/__Core/Error/Expected.h:70-118 (assignments)", "include/Caitlyn/__Core/Error/Expected.h:140-156 (Get, GetError)", "include/Caitlyn/__Core/Error/Expected.h:231-248 (Expect, ExpectError)"]}
{"id": "C175", "title": "The constants of the library can be used wherever a value of their type can", "statement": "A program that gives String::NPosition or BooleanConstant<B>::Value, or an expression with one of them, to a function of the library that takes a value of that type links, in every standard from C++11 on.", "quantifier": "every expression of conditional, comma, binary and unary operators over the constant, other variables and values; every function of the library that takes a value of the type, by value or by reference; C++11, C++14 and C++17", "why_tests_cant": "Whether the missing definition is noticed depends on the standard and on the optimiser of the build; the tests compare with NPosition only, which needs no definition.", "anchors": ["include/Caitlyn/__Core/String/String.h:559 (NPosition)", "include/Caitlyn/__Core/Traits/Types/Base.h:65 (Value)", "include/Caitlyn/__Core/String/String.h:563 (Format)", "CMakeLists.txt:25"]}
{"id": "C176", "title": "Format takes linear time", "statement": "The number of steps of String::Format(f, args...) is at most a constant times the number of characters of f and of the converted arguments and the number of bytes that are written, also if it ends with an exception.", "quantifier": "every template and every list of arguments of well-formed characters", "why_tests_cant": "Tests format short texts; a function that searches or copies the rest of the template again for each placeholder gives the same results.", "anchors": ["include/Caitlyn/__Core/String/String.h:563-663 (Format)", "include/Caitlyn/__Core/String/String.h:806-871 (ParseWidth, ParsePrecision, MakeSpacifier)", "include/Caitlyn/__Core/String/String.h:874-973 (ProcessAlignment, ProcessFloating, Process)"]}
