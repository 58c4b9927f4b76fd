{
 "claims": [
  {
   "property": "C01",
   "status": "proved",
   "theorems": [
    "Caitlyn.C01_encodes_utf8",
    "Caitlyn.C01_nul_is_empty"
   ],
   "note": "[C01_encodes_utf8] C01. Constructing a `Char` from any Unicode scalar value other than 0 stores exactly its UTF-8 encoding (reference: Lean core's `String.utf8EncodeChar`). [C01_nul_is_empty] C01, the excluded case: U+0000 is stored as the empty string, not as one NUL byte."
  },
  {
   "property": "C02",
   "status": "proved",
   "theorems": [
    "Caitlyn.C02_code_point_round_trip",
    "Caitlyn.C02_code_point_beyond"
   ],
   "note": "[C02_code_point_round_trip] C02. The code point of `Char(cp)` is `cp`, for every `cp` below 2^21 (so for all of Unicode). [C02_code_point_beyond] C02, all other 32-bit values: at and above 2^21 the code point is lost; the result is 0 if bit 21 is set and the value modulo 2^21 otherwise."
  },
  {
   "property": "C03",
   "status": "proved",
   "theorems": [
    "Caitlyn.C03_get_code_point_safe",
    "Caitlyn.C03_validated_char_is_safe",
    "Caitlyn.C03_raw_byte_is_ub"
   ],
   "note": "[C03_get_code_point_safe] C03. `GetCodePoint` on a `Char` that a user can create returns normally, except for a `Char` holding one raw byte 0xE0..0xF7, on which it reads out of bounds. [C03_validated_char_is_safe] C03, in particular: never out of bounds on a `Char` accepted by the validating constructor. [C03_raw_byte_is_ub] C03 witness: the unsafe `Char`s exist."
  },
  {
   "property": "C04",
   "status": "proved",
   "theorems": [
    "Caitlyn.C04_decodes_utf8"
   ],
   "note": "[C04_decodes_utf8] C04. Building a `String` from the UTF-8 bytes of any sequence of non-NUL scalar values succeeds; it has one element per scalar value, each with that code point, and `str()` gives the bytes back. `rest` is whatever follows the terminator in memory."
  },
  {
   "property": "C05",
   "status": "proved",
   "theorems": [
    "Caitlyn.C05_byte_exact",
    "Caitlyn.C05_reads_only_to_nul"
   ],
   "note": "[C05_byte_exact] C05. Whenever constructing a `String` from memory succeeds, the memory starts with `a` and a NUL where `a` has no NUL, `str()` is exactly `a`, `ByteCount()` is its length and every element has the shape of one UTF-8 character. [C05_reads_only_to_nul] C05. A successful construction does not depend on the memory after the terminator."
  },
  {
   "property": "C06",
   "status": "partial",
   "theorems": [
    "Caitlyn.C06_succeeds_iff_shaped",
    "Caitlyn.C06_reads_past_end_iff_truncated",
    "Caitlyn.C06_malformed_rejected_partial",
    "Caitlyn.C06_fails_truncated",
    "Caitlyn.C06_fails_overlong"
   ],
   "note": "[C06_malformed_rejected_partial] C06. Partial: rejection of malformed input holds for everything that does not have UTF-8 shape, except the truncated inputs of `C06_reads_past_end_iff_truncated`; what is missing is that those are undefined instead of rejected and that overlong forms and surrogates are accepted (`C06_fails_...` below). [C06_fails_truncated] C06 is false as stated: a string ending in a lone three-byte lead is undefined behaviour. [C06_fails_overlong] C06 is false as stated: an overlong encoding and a surrogate are accepted although they are not UTF-8."
  },
  {
   "property": "C07",
   "status": "proved",
   "theorems": [
    "Caitlyn.C07_order_is_byte_order",
    "Caitlyn.C07_order_is_code_point_order"
   ],
   "note": "[C07_order_is_byte_order] C07. For `String`s of shaped characters, element-wise `<` is byte-wise lexicographic `<` of `str()` (Lean's order on lists of bytes), hence also `<` against a C string. [C07_order_is_code_point_order] C07. For `String`s decoded from scalar values, `<` is the lexicographic order of the code points (Lean's order on `List Char`)."
  },
  {
   "property": "C08",
   "status": "proved",
   "theorems": [
    "Caitlyn.C08_equality_is_byte_equality",
    "Caitlyn.C08_raw_bytes_differ"
   ],
   "note": "[C08_equality_is_byte_equality] C08. Two `String`s of shaped characters are equal iff their bytes are equal, so comparing with a `String` and with a C string agree. [C08_raw_bytes_differ] C08 needs the hypothesis: raw bytes can form different `String`s with equal bytes."
  },
  {
   "property": "C09",
   "status": "partial",
   "theorems": [
    "Caitlyn.C09_plus_loops",
    "Caitlyn.C09_concat",
    "Caitlyn.C09_plus_assign_partial",
    "Caitlyn.C09_self_fails",
    "Caitlyn.C09_append_cstr",
    "Caitlyn.C09_append_count"
   ],
   "note": "[C09_plus_assign_partial] C09. Partial: `a += b` agrees with `a + b` when `b` is another object. Missing: `a += a` (`C09_self_fails`). [C09_self_fails] C09 fails for `a += a`, where `a + a` is fine: `vector::insert` may not be given a range of its own elements, so the behaviour is undefined, for every string."
  },
  {
   "property": "C10",
   "status": "proved",
   "theorems": [
    "Caitlyn.C10_substring",
    "Caitlyn.C10_substring_partition"
   ],
   "note": "[C10_substring] C10. `Substring(pos, count)` throws `out_of_range` iff `pos > size()`; otherwise it returns the elements from `pos`, at most `count` of them. It has no other outcome, whatever `pos` and `count` (in particular when `pos + count` exceeds `size_t`). [C10_substring_partition] C10. A substring together with what is before and after it is the whole string."
  },
  {
   "property": "C11",
   "status": "proved",
   "theorems": [
    "Caitlyn.C11_find_first",
    "Caitlyn.C11_find_other"
   ],
   "note": "[C11_find_first] C11. For a non-empty needle and `pos <= size()`, `Find` returns the least index `>= pos` at which the needle occurs; it returns `NPosition` iff the needle occurs at no index `>= pos`. [C11_find_other] C11, the remaining inputs: `pos > size()` is undefined; the empty needle is found at `pos`, except at the end of the string where the result is `NPosition`."
  },
  {
   "property": "C12",
   "status": "partial",
   "theorems": [
    "Caitlyn.C12_reverse_find_exact",
    "Caitlyn.C12_reverse_find_single_partial",
    "Caitlyn.C12_fails"
   ],
   "note": "[C12_reverse_find_single_partial] C12. Partial: `ReverseFind` returns the start of the last occurrence for needles of one character. Missing: longer needles, for which the returned index is `needle.size() - 1` too large (`C12_fails`). [C12_fails] C12 is false as stated: the only occurrence of \"na\" ending by the end of \"ana\" starts at 1, but `ReverseFind` returns 2."
  },
  {
   "property": "C13",
   "status": "partial",
   "theorems": [
    "Caitlyn.C13_starts_with",
    "Caitlyn.C13_ends_with",
    "Caitlyn.C13_contains",
    "Caitlyn.C13_contains_fails_empty"
   ],
   "note": "[C13_contains_fails_empty] C13, the excluded case: the empty string is not reported to contain the empty string, although it is a substring of it."
  },
  {
   "property": "C14",
   "status": "partial",
   "theorems": [
    "Caitlyn.C14_insert_partial",
    "Caitlyn.C14_self_fails",
    "Caitlyn.C14_insert_variants"
   ],
   "note": "[C14_insert_partial] C14. Partial: `Insert(pos, str)` throws `out_of_range` iff `pos > size()` (and yields no new content); otherwise, `str` being another object, the result is the first `pos` elements, then `str`, then the rest. Missing: a string inserted into itself (`C14_self_fails`). [C14_self_fails] C14 fails for a string that is inserted into itself, at whatever position: `vector::insert` may not be given a range of its own elements."
  },
  {
   "property": "C15",
   "status": "proved",
   "theorems": [
    "Caitlyn.C15_at"
   ],
   "note": "[C15_at] C15. `At(i)` returns element `i` when `i < size()` and throws `out_of_range` otherwise; `operator[]` returns the same element, and is undefined exactly where `At` throws."
  },
  {
   "property": "C16",
   "status": "proved",
   "theorems": [
    "Caitlyn.C16_elementwise",
    "Caitlyn.C16_ascii"
   ],
   "note": "[C16_elementwise] C16. If every element has a code point (`cps i` is the one of element `i`), `ToUppercase` and `ToLowercase` return a string of the same size whose elements are the mapped code points. [C16_ascii] C16. On ASCII text the mappings are those of ASCII (reference: Lean core's `Char.toUpper` and `Char.toLower`, which change exactly the 26 letters)."
  },
  {
   "property": "C17",
   "status": "partial",
   "theorems": [
    "Caitlyn.C17_caseless_upper",
    "Caitlyn.C17_caseless_lower_partial",
    "Caitlyn.C17_fails_lower"
   ],
   "note": "[C17_caseless_lower_partial] C17, `ToLowercase`. Partial: only below U+1FEC. Missing: everything from U+1FEC on (punctuation, currency signs, CJK, emoji), where the code point is reduced by 8 (`C17_fails_lower`). [C17_fails_lower] C17 is false for `ToLowercase`: every code point from U+1FEC on other than the Kelvin and Angstrom signs is changed to the one 8 below."
  },
  {
   "property": "C18",
   "status": "partial",
   "theorems": [
    "Caitlyn.C18_upper_idempotent",
    "Caitlyn.C18_lower_idempotent_iff_partial",
    "Caitlyn.C18_fails_lower"
   ],
   "note": "[C18_lower_idempotent_iff_partial] C18. `ToLowercase` is idempotent exactly on the code points below U+1FF0 and on the Kelvin and Angstrom signs. Partial: the property claims it for all code points. [C18_fails_lower] C18 is false for `ToLowercase`: the euro sign keeps changing."
  },
  {
   "property": "C19",
   "status": "partial",
   "theorems": [
    "Caitlyn.C19_inverse_partial",
    "Caitlyn.C19_latin1_fails"
   ],
   "note": "[C19_inverse_partial] C19. On the basic Latin, Greek and Cyrillic letters the two mappings are inverse to each other and map the alphabets onto each other. Partial: Latin-1 letters are missing because the code leaves them unchanged (`C19_latin1_fails`). [C19_latin1_fails] C19, Latin-1: no letter of U+00C0..U+00FE other than ß is mapped by either function; é (U+00E9) is its own upper case."
  },
  {
   "property": "C20",
   "status": "proved",
   "theorems": [
    "Caitlyn.C20_disjoint"
   ],
   "note": "[C20_disjoint] C20. The classes are pairwise disjoint."
  },
  {
   "property": "C21",
   "status": "partial",
   "theorems": [
    "Caitlyn.C21_to_digit",
    "Caitlyn.C21_digit_value_partial",
    "Caitlyn.C21_fails"
   ],
   "note": "[C21_digit_value_partial] C21. Partial: every character with a `ToDigit` value is accepted by `IsDigit`. Missing: the converse, false outside ASCII (`C21_fails`). [C21_fails] C21 is false: the Arabic-Indic digit five is accepted by `IsDigit` but has no `ToDigit` value."
  },
  {
   "property": "C22",
   "status": "proved",
   "theorems": [
    "Caitlyn.C22_decides_substring",
    "Caitlyn.C22_empty_pattern"
   ],
   "note": "[C22_decides_substring] C22. For every non-empty pattern and every text, `kmp` returns (no access out of bounds, all loops end) and says whether the pattern occurs in the text. The size hypothesis holds for every `std::string`. [C22_empty_pattern] C22, the empty pattern: the answer for an empty text is false, for a text that begins with a non-NUL byte true; a text that begins with two NUL bytes makes it read past the end."
  },
  {
   "property": "C23",
   "status": "proved",
   "theorems": [
    "Caitlyn.C23_split_join"
   ],
   "note": "[C23_split_join] C23. No piece of a split text contains the separator; joining the pieces with it gives the text back, up to one separator at its end."
  },
  {
   "property": "C24",
   "status": "partial",
   "theorems": [
    "Caitlyn.C24_repeat_partial",
    "Caitlyn.C24_fails"
   ],
   "note": "[C24_repeat_partial] C24. Partial: for n >= 1, `Repeat(s, n)` is n copies. Missing: n = 0 (`C24_fails`). [C24_fails] C24 is false as stated: zero repetitions of a text give the text, whenever it is not empty."
  },
  {
   "property": "C25",
   "status": "partial",
   "theorems": [
    "Caitlyn.C25_decodes_partial",
    "Caitlyn.C25_no_escapes",
    "Caitlyn.C25_exact",
    "Caitlyn.C25_one_reading",
    "Caitlyn.C25_four_digits_fails",
    "Caitlyn.C25_fails"
   ],
   "note": "[C25_decodes_partial] C25. Partial: a text made of ordinary characters, letter escapes and `\\u` escapes of ASCII characters is decoded to what it denotes. Missing: `\\u` escapes from 0x80 on (cut to one byte) and unknown escapes (`C25_fails`). [C25_four_digits_fails] C25 is false as stated: the four characters behind `\\u` need not be digits. A sign, spaces, a prefix `0x` and letters that are no digits are taken as well. [C25_fails] C25 is false as stated: the euro sign's escape is an error, and the letter of an unknown escape comes out twice."
  },
  {
   "property": "C26",
   "status": "partial",
   "theorems": [
    "Caitlyn.C26_first",
    "Caitlyn.C26_last_partial",
    "Caitlyn.C26_fails"
   ],
   "note": "[C26_last_partial] C26. Partial: for a non-empty string `FindLastNonSpace` returns the greatest index of a non-space character if that index is positive, otherwise the size. Missing: a string whose only non-space character is the first, and the empty string (`C26_fails`). [C26_fails] C26 is false as stated for `FindLastNonSpace`: it misses index 0 and reads out of bounds on the empty string."
  },
  {
   "property": "C27",
   "status": "partial",
   "theorems": [
    "Caitlyn.C27_accumulates_partial",
    "Caitlyn.C27_fails",
    "Caitlyn.C27_append_to_copy"
   ],
   "note": "[C27_accumulates_partial] C27. Partial: `str()` is the concatenation of everything appended in the builder's history, when nothing was appended after copying. Missing: appending to a copy, which overwrites its beginning (`C27_fails`). [C27_fails] C27 is false as stated: appending \"X\" to a copy of a builder holding \"abc\" gives \"Xbc\"."
  },
  {
   "property": "C28",
   "status": "proved",
   "theorems": [
    "Caitlyn.C28_plain_text",
    "Caitlyn.C28_invalid_char"
   ],
   "note": "[C28_plain_text] C28. A text without curly brackets is unchanged. [C28_invalid_char] C28, characters that are not UTF-8: a `Char` made of one invalid byte cannot pass through `Format`."
  },
  {
   "property": "C29",
   "status": "proved",
   "theorems": [
    "Caitlyn.C29_doubled_brackets"
   ],
   "note": "[C29_doubled_brackets] C29. Doubling the brackets of a text and formatting it gives the text back."
  },
  {
   "property": "C30",
   "status": "proved",
   "theorems": [
    "Caitlyn.C30_sequential",
    "Caitlyn.C30_interleaved"
   ],
   "note": "[C30_sequential] C30. Literal text and `{}` placeholders, at most as many as arguments (any number when there is exactly one argument): the placeholders become the arguments in order (`render`). [C30_interleaved] C30, the plain case: exactly as many placeholders as arguments, separated by bracket-free texts."
  },
  {
   "property": "C31",
   "status": "proved",
   "theorems": [
    "Caitlyn.C31_indexed",
    "Caitlyn.C31_index_too_large"
   ],
   "note": "[C31_indexed] C31. Literal text, `{}` and `{i}` with `i` below the number of arguments: `{i}` becomes argument `i`. [C31_index_too_large] C31. An index not below the number of arguments, however large, raises `FormatError`, whatever follows it."
  },
  {
   "property": "C32",
   "status": "partial",
   "theorems": [
    "Caitlyn.C32_fails",
    "Caitlyn.C32_uses_counter",
    "Caitlyn.C32_indexed_spec_partial",
    "Caitlyn.C32_exact_fails"
   ],
   "note": "[C32_fails] C32 is false as stated: `{1:>3}` formats the first argument. [C32_indexed_spec_partial] C32. Partial: `{i:…}` formats argument `i` when exactly `i` placeholders `{}` precede it (or there is one argument). Missing: all other indices (`C32_fails`). [C32_exact_fails] C32, exactly, for every specification: `{i:spec}` with a valid index stands for what `spec` makes of the argument whose number is that of the plain placeholders counted so far; so it stands for argument `i` if and only if this is the text of argument `i` in the same specification."
  },
  {
   "property": "C33",
   "status": "proved",
   "theorems": [
    "Caitlyn.C33_alignment",
    "Caitlyn.C33_pad"
   ],
   "note": "[C33_alignment] C33. A template of literal text, placeholders and alignment specifications `{:f<w}`, `{:>w}` and so on renders each specification as the first argument padded (`pad`). [C33_pad] C33, what `pad` is: the result has max(width, length) characters and is the value with only fill characters around it, all on the right (left alignment), all on the left (right alignment), or split with the extra one on the right (centre)."
  },
  {
   "property": "C34",
   "status": "partial",
   "theorems": [
    "Caitlyn.C34_fails",
    "Caitlyn.C34_no_ub_partial",
    "Caitlyn.C34_exact_fails",
    "Caitlyn.C34_no_arguments_fails"
   ],
   "note": "[C34_fails] C34 is false as stated: an empty specification, more `{}` than (two or more) arguments, and an index without any argument all read outside a container. [C34_no_ub_partial] C34. Partial: with at least one argument, valid characters, no `:` directly before a `}`, and no more `{` than arguments (any number if there is one argument), `Format` returns or throws for every template. Missing: the templates of `C34_fails`. [C34_exact_fails] C34, exactly: `Format` is undefined if and only if the first placeholder that cannot be rendered is undefined. Which ones are, `C115_undefined` says. [C34_no_arguments_fails] C34. Without arguments every placeholder that is not rejected is undefined, unless text follows its index."
  },
  {
   "property": "C35",
   "status": "partial",
   "theorems": [
    "Caitlyn.C35_fails",
    "Caitlyn.C35_unclosed_partial",
    "Caitlyn.C35_lone_close_partial",
    "Caitlyn.C35_never_returns",
    "Caitlyn.C35_exact_fails"
   ],
   "note": "[C35_fails] C35 is false as stated: an earlier placeholder can fail in another way first. [C35_unclosed_partial] C35. Partial: after any sequence of correct pieces, a `{` that is not doubled and never closed raises `FormatError`. Missing: templates in which an earlier placeholder is itself wrong (`C35_fails`). [C35_lone_close_partial] C35. Partial: after any sequence of correct pieces, a `}` that is not doubled raises `FormatError`. [C35_exact_fails] C35, exactly: a template with an unmatched bracket raises `FormatError` if and only if no placeholder before the bracket is the first to fail with something else. Which kinds of failure there are, `C115_kinds` says."
  },
  {
   "property": "C36",
   "status": "proved",
   "theorems": [
    "Caitlyn.C36_round_trip",
    "Caitlyn.C36_normalises"
   ],
   "note": "[C36_round_trip] C36. The decimal notation of an integer is accepted, gives the canonical number, and is printed back. [C36_normalises] C36. Any non-empty string of ASCII digits, with or without sign, leading zeros allowed, gives the number it denotes (reference: Lean core's `Nat.ofDigitChars`); so \"-0\" and \"000\" give zero."
  },
  {
   "property": "C37",
   "status": "partial",
   "theorems": [
    "Caitlyn.C37_rejects_partial",
    "Caitlyn.C37_exact_fails",
    "Caitlyn.C37_fails"
   ],
   "note": "[C37_rejects_partial] C37. Partial: for a `String` whose characters have code points, the constructor throws `invalid_argument` iff the string is empty or some character after the optional sign is not accepted by `IsDigit`; otherwise it succeeds. Missing: a sign alone and non-ASCII digits should be rejected too but are accepted (`C37_fails`). [C37_exact_fails] C37, exactly, for what is accepted: the \"digits\" of the number are the code points less 48, whatever the script, without leading zeros; so the result is a number if and only if all of them are ASCII digits (a sign alone, with none, is 0). [C37_fails] C37 is false as stated: a lone sign is accepted as zero, and an Arabic-Indic three (U+0663) is accepted as a \"digit\" of value 1587."
  },
  {
   "property": "C38",
   "status": "partial",
   "theorems": [
    "Caitlyn.C38_add_exact",
    "Caitlyn.C38_add_partial",
    "Caitlyn.C38_fails"
   ],
   "note": "[C38_add_partial] C38. Partial: the sum is exact for operands of equal sign, and for mixed signs when the left operand is positive and larger or has the smaller magnitude. Missing: the pairs listed in `C38_add_exact` (`C38_fails`). [C38_fails] C38 is false as stated: (-5) + 3 is 2, (-5) + 0 is 5, and 5 + (-5) is a zero that is not equal to 0."
  },
  {
   "property": "C39",
   "status": "partial",
   "theorems": [
    "Caitlyn.C39_subtract_exact",
    "Caitlyn.C39_subtract_partial",
    "Caitlyn.C39_fails"
   ],
   "note": "[C39_subtract_partial] C39. Partial: exact when both operands are non-negative, when they are equal, or when one of them is 0. Missing: two different negative operands (the result has the opposite sign) and non-zero operands of different signs (`C39_fails`). [C39_fails] C39 is false as stated: 5 - (-3) is 2, (-5) - 3 is -2, (-5) - (-3) is 2, (-5) - 5 is a zero that is not equal to 0."
  },
  {
   "property": "C40",
   "status": "proved",
   "theorems": [
    "Caitlyn.C40_multiply"
   ],
   "note": "[C40_multiply] C40. The product of any two numbers is exact and canonical; the computation has no undefined behaviour (no overflow, no access out of bounds)."
  },
  {
   "property": "C41",
   "status": "partial",
   "theorems": [
    "Caitlyn.C41_divide",
    "Caitlyn.C41_truncates",
    "Caitlyn.C41_negative_zero_divisor_fails"
   ],
   "note": "[C41_negative_zero_divisor_fails] C41, the divisor that no number equals: dividing by \"negative zero\" (which `5 + (-5)` produces) is not detected and yields an invalid digit."
  },
  {
   "property": "C42",
   "status": "partial",
   "theorems": [
    "Caitlyn.C42_modulo_exact",
    "Caitlyn.C42_modulo_partial",
    "Caitlyn.C42_fails"
   ],
   "note": "[C42_modulo_partial] C42. Partial: `a % b` is the canonical number of that value unless `a` is a negative multiple of `b`; `x % 0` throws `invalid_argument`. Missing: negative multiples, where the result prints as \"0\" but is not equal to 0 (`C42_fails`). [C42_fails] C42 is false as stated: (-6) % 3 is a zero that is not equal to 0 (it prints as \"0\")."
  },
  {
   "property": "C43",
   "status": "proved",
   "theorems": [
    "Caitlyn.C43_pow"
   ],
   "note": "[C43_pow] C43. `Pow(e)` is the power for `e >= 0` (with enough loop rounds: `e + 1` suffice, so it terminates) and throws `invalid_argument` for negative `e`."
  },
  {
   "property": "C44",
   "status": "proved",
   "theorems": [
    "Caitlyn.C44_sqrt"
   ],
   "note": "[C44_sqrt] C44. `Sqrt()` of a non-negative number terminates (`n + 1` rounds suffice) and is the integer square root; it throws `invalid_argument` for negative numbers."
  },
  {
   "property": "C45",
   "status": "partial",
   "theorems": [
    "Caitlyn.C45_compare_exact",
    "Caitlyn.C45_compare_partial",
    "Caitlyn.C45_fails"
   ],
   "note": "[C45_compare_partial] C45. Partial: all six operators are right unless both numbers are negative and different. Missing: two different negative numbers (`C45_fails`). [C45_fails] C45 is false as stated: -5 < -3 is reported false."
  },
  {
   "property": "C46",
   "status": "partial",
   "theorems": [
    "Caitlyn.C46_canonical_partial",
    "Caitlyn.C46_unique",
    "Caitlyn.C46_fails"
   ],
   "note": "[C46_canonical_partial] C46. Partial: every computed number has digits 0..9 without leading zero; it is the canonical number of its value or the zero with sign flag. Missing: \"no negative zero\" (`C46_fails`), and division by such a zero, which even creates the digit 10 (`C41_negative_zero_divisor_fails`). [C46_fails] C46 is false as stated: a negative zero is computed from numerals."
  },
  {
   "property": "C47",
   "status": "proved",
   "theorems": [
    "Caitlyn.C47_int64"
   ],
   "note": "[C47_int64] C47. The 64-bit constructors are exact (they go through `std::to_string`)."
  },
  {
   "property": "C48",
   "status": "partial",
   "theorems": [
    "Caitlyn.C48_parse",
    "Caitlyn.C48_value",
    "Caitlyn.C48_integer",
    "Caitlyn.C48_point_partial",
    "Caitlyn.C48_fails",
    "Caitlyn.C48_accepts_fails"
   ],
   "note": "[C48_point_partial] C48 for numerals with a point: the value is kept exactly if the fraction does not begin with zero (or is zero), and a negative numeral is not above -1 (or is zero). [C48_fails] C48 is false as stated: 0.05 is read as 0.5, and -0.5 as 0.5. [C48_accepts_fails] Texts that are no numerals are accepted, and printed again."
  },
  {
   "property": "C49",
   "status": "partial",
   "theorems": [
    "Caitlyn.C49_add_partial",
    "Caitlyn.C49_subtract_partial",
    "Caitlyn.C49_diverges_fails",
    "Caitlyn.C49_exact",
    "Caitlyn.C49_fails"
   ],
   "note": "[C49_add_partial] C49, addition: for numbers of the same sign that both have a fraction or both have none, the sum is exact if the fractions add up to less than one, or have one digit and the numbers are not negative. Missing: every other sum. [C49_subtract_partial] C49, subtraction: for non-negative numbers that both have a fraction or both have none, the difference is exact if the fraction and the integer of the second are not above those of the first and the difference of the fractions does not begin with zero (or is zero), or if there is a borrow, the fractions have one digit and the difference is at least zero. Missing: every other difference. [C49_diverges_fails] C49 is false as stated: if exactly one of the numbers has a fraction, neither the sum nor the difference is ever returned, however many rounds the loops are allowed. [C49_fails] C49 is false as stated also where both terminate: 0.99 + 0.99 = 1.178, -1.5 + -1.7 = 1.2, -1.5 + 2.7 = 2.2, 1.10 - 0.95 = 0.-65, 1.5 - 2.7 = 0.8."
  },
  {
   "property": "C50",
   "status": "partial",
   "theorems": [
    "Caitlyn.C50_fractions_partial",
    "Caitlyn.C50_exact",
    "Caitlyn.C50_integers_fails",
    "Caitlyn.C50_fails"
   ],
   "note": "[C50_fractions_partial] C50 for two numbers that both have a fraction: the product is exact if and only if its fraction, written with as many digits as the fractions of the factors together, is zero or does not begin with zero -- provided the product is not between -1 and 0. [C50_integers_fails] C50 is false as stated: the product of two integers is a hundred times too large. [C50_fails] C50 is false as stated: 12 * 3 = 3600, 1.1 * 1.9 = 2.9, -1.5 * 0.5 = 0.75, 2.5 * 2 = 50."
  },
  {
   "property": "C51",
   "status": "partial",
   "theorems": [
    "Caitlyn.C51_exact",
    "Caitlyn.C51_less_partial",
    "Caitlyn.C51_equal_sound",
    "Caitlyn.C51_equal_partial",
    "Caitlyn.C51_fails"
   ],
   "note": "[C51_less_partial] C51, partial: `<` is the order of the values if the integer parts differ and are not both negative, or are equal and not negative and the fractions have the same number of digits (or one of them is zero). [C51_equal_partial] C51, partial: for fractions that do not end with zero (or are zero), `==` is equality of the values. [C51_fails] C51 is false as stated: 1.5 < 1.25, 1.5 is not 1.50, and -2 < -1 is reported false."
  },
  {
   "property": "C52",
   "status": "partial",
   "theorems": [
    "Caitlyn.C52_prints",
    "Caitlyn.C52_partial",
    "Caitlyn.C52_exact_partial",
    "Caitlyn.C52_bad_string_fails",
    "Caitlyn.C52_fails",
    "Caitlyn.C52_fails_float"
   ],
   "note": "[C52_partial] C52, for the trees in `Printable`: parsing what `ToString` printed, compact or pretty and with any indent, gives an equal document without error. Missing: floating point numbers printed without exponent, strings and keys with quotation marks, strings with backslashes, and `true`, `false` or `null` together with characters that are not ASCII; for each of these the property fails (see below). [C52_exact_partial] C52, exactly, for ASCII trees whose floating point numbers print as characters of numbers: parsing what `ToString` printed gives the same document without error if and only if the tree is an object in `Printable`. So the property fails for every such tree with a quotation mark in a string or key, a backslash in a string, an integer that is not of 64 bits, two members with one key in an object, or a floating point number that is not printed with an exponent or is not read back as itself, wherever it is in the tree, and for every tree that is no object. [C52_bad_string_fails] So a single quotation mark or backslash anywhere loses the document: here in a string of any array of any object. [C52_fails] C52 fails: a string with a quotation mark, a backslash or a line feed written as an escape, a key with a quotation mark, and `true` after a character that is not ASCII. [C52_fails_float] C52 fails for every floating point number printed as a plain decimal: it comes back as an integer."
  },
  {
   "property": "C53",
   "status": "proved",
   "theorems": [
    "Caitlyn.C53_terminates"
   ],
   "note": "[C53_terminates] C53: parsing ends on every text: the bound on the depth of calls and iterations used by the model, twice the length of the text plus two, is never reached."
  },
  {
   "property": "C54",
   "status": "partial",
   "theorems": [
    "Caitlyn.C54_partial",
    "Caitlyn.C54_fails_unterminated",
    "Caitlyn.C54_fails_throws"
   ],
   "note": "[C54_partial] C54, for well-formed texts: a text of the dialect is parsed without undefined behaviour or exception. Missing: the texts outside the dialect; on some of them `Parse` reads beyond the end (`C54_fails_unterminated`). What happens on each of them is `C116_exact`. [C54_fails_unterminated] C54 fails: on these texts `Parse` reads the character after the last one. [C54_fails_throws] C54: some texts make `Parse` throw instead of reporting an error: the escape writes a byte that is no UTF-8."
  },
  {
   "property": "C55",
   "status": "proved",
   "theorems": [
    "Caitlyn.C55_root",
    "Caitlyn.C55_sticky"
   ],
   "note": "[C55_root] C55: if `Parse` returns, then either it reports an error and the root is Null, or it does not and the root is an object. [C55_sticky] C55: an error recorded before a value, object or array is parsed is still recorded (possibly as another error) afterwards. `n` is the bound on the depth; it is large enough in every call."
  },
  {
   "property": "C56",
   "status": "partial",
   "theorems": [
    "Caitlyn.C56_ascii_partial",
    "Caitlyn.C56_non_ascii_partial",
    "Caitlyn.C56_unique",
    "Caitlyn.C56_fails_literals",
    "Caitlyn.C56_fails_trailing",
    "Caitlyn.C56_fails_numbers"
   ],
   "note": "[C56_ascii_partial] C56, for ASCII texts: `Parse` accepts exactly the texts of the dialect, and the root is the tree the text denotes. Missing: texts with other characters (see `C56_non_ascii_partial` and the `_fails` theorems). [C56_non_ascii_partial] C56, for all texts: a text of the dialect without the literals `true`, `false` and `null` is accepted and the root is the tree it denotes. [C56_fails_literals] C56 fails: the literals are compared at a position in bytes, so that `{\"é\":true}` is rejected and a text that is no JSON is accepted. [C56_fails_trailing] C56 fails: text after the object is accepted if it ends in `}`. [C56_fails_numbers] C56: what is accepted of RFC 8259's numbers: `01`, `1.2.3` and `+1` are."
  },
  {
   "property": "C57",
   "status": "partial",
   "theorems": [
    "Caitlyn.C57_plain_partial",
    "Caitlyn.C57_fails_next_lost",
    "Caitlyn.C57_fails"
   ],
   "note": "[C57_plain_partial] C57, for literals without backslash: the literal denotes its characters, and parses to them. Missing: literals with escapes (see the `_fails` theorems). [C57_fails_next_lost] C57 fails, for every literal with one escape in front of another character: the escape is read correctly and the character that follows it is lost. [C57_fails] C57 fails: a literal that ends in an escape swallows its own end; `\\/` is no escape; `\\u` writes the low byte of the code point."
  },
  {
   "property": "C58",
   "status": "partial",
   "theorems": [
    "Caitlyn.C58_int64",
    "Caitlyn.C58_range_partial",
    "Caitlyn.C58_fails_range",
    "Caitlyn.C58_fails_fraction",
    "Caitlyn.C58_exponent"
   ],
   "note": "[C58_range_partial] C58: a literal outside int64 is reported as an error. [C58_fails_range] C58 fails, for every literal outside int64: the error reported is not `OutOfRangeError`. [C58_fails_fraction] C58 fails, for every literal with a fraction and without exponent: the fraction is lost."
  },
  {
   "property": "C59",
   "status": "partial",
   "theorems": [
    "Caitlyn.C59_history_partial",
    "Caitlyn.C59_fails_getData",
    "Caitlyn.C59_parse",
    "Caitlyn.C59_repeated"
   ],
   "note": "[C59_history_partial] C59: no value a program can make has two members with the same key. Missing: writing to the vector that `GetData()` refers to, which is not checked (`C59_fails_getData`). [C59_fails_getData] C59 fails for writes through the reference that `GetData()` returns: nothing checks the keys."
  },
  {
   "property": "C60",
   "status": "partial",
   "theorems": [
    "Caitlyn.C60_step",
    "Caitlyn.C60_history_partial",
    "Caitlyn.C60_new",
    "Caitlyn.C60_parsed",
    "Caitlyn.C60_observe",
    "Caitlyn.C60_fails_after_error"
   ],
   "note": "[C60_history_partial] C60: so does every sequence of operations. [C60_fails_after_error] C60 fails for documents whose last parse reported an error: they have no members but their size is the largest number, and `operator[] const` is undefined instead of throwing."
  },
  {
   "property": "C61",
   "status": "proved",
   "theorems": [
    "Caitlyn.C61_operations",
    "Caitlyn.C61_history",
    "Caitlyn.C61_append_other",
    "Caitlyn.C61_beyond_end",
    "Caitlyn.C61_at_exact"
   ],
   "note": "[C61_operations] C61: `Append` adds at the end, `Size` counts, `At` is bounds checked, and `operator[]` in range refers to the element. [C61_history] C61: every history of appends and assignments in range makes the array that the history on lists makes, starting from any array; from any other value the first operation starts with an empty array. [C61_append_other] C61: `Append` to a value that is no array replaces it by an array of the one element. [C61_beyond_end] Beyond the end `operator[]` constructs an element at a null pointer. [C61_at_exact] C61, exactly: `At(index) const` of a value that is no array reads a member of the union that is not active."
  },
  {
   "property": "C62",
   "status": "partial",
   "theorems": [
    "Caitlyn.C62_getters",
    "Caitlyn.C62_assign",
    "Caitlyn.C62_make_partial",
    "Caitlyn.C62_make_default",
    "Caitlyn.C62_fails_make"
   ],
   "note": "[C62_make_partial] C62, for `Make(type)`, `MakeObject`, `MakeArray`, `MakeNull` and `MakeString`: they make the type they name. Missing: `MakeFloating`, `MakeIntegral` and `MakeBoolean` (`C62_fails_make`). [C62_fails_make] C62 fails, for every value: `MakeBoolean` makes a string; so do `MakeIntegral` and `MakeFloating`."
  },
  {
   "property": "C63",
   "status": "partial",
   "theorems": [
    "Caitlyn.C63_history_partial",
    "Caitlyn.C63_released_partial",
    "Caitlyn.C63_others_unchanged",
    "Caitlyn.C63_move_leaves_null",
    "Caitlyn.C63_string_leaks_fails",
    "Caitlyn.C63_exact",
    "Caitlyn.C63_lost_forever",
    "Caitlyn.C63_part_of_itself_fails",
    "Caitlyn.C63_whole_into_part_fails",
    "Caitlyn.C63_move_into_part_fails",
    "Caitlyn.C63_remove_leaks_fails"
   ],
   "note": "[C63_history_partial] C63. For every program of declarations, copies, moves, assignments, `operator[]`, `Append` and ends of scopes, in any order and on any places, except assignments between a value and a proper part of it: if every place exists, the program runs without undefined behaviour (in particular no node is used after its release or released twice), every variable has the value it should have, and the nodes in memory are those of the values of the variables, no more. Missing from the full statement: assignments between a value and a part of it (`C63_part_of_itself_fails`, `C63_whole_into_part_fails`, `C63_move_into_part_fails`), `RemoveMember` (`C63_remove_leaks_fails`), for which `C63_exact` says what happens instead, and the buffers of strings (`C63_string_leaks_fails`). [C63_released_partial] C63. When the last variable has left its scope, every node has been released. [C63_string_leaks_fails] C63 fails for strings: no program ever releases one. After every program, the strings that have been constructed and not destroyed are all that the program has made, by declarations, copies, assignments and `Append`, whatever is still in use. [C63_part_of_itself_fails] C63 fails, for every value and every part of it: after every program, `a = a.part` and `a = std::move(a.part)` destroy the source before they read it. [C63_whole_into_part_fails] C63 fails, for every value and every part of it: after every program, `a.part = a` is defined, but does not give the part the value that `a` has had, except where the part has been equal to the array of the items, or the object of the members, before the one that it is in. [C63_move_into_part_fails] C63 fails, for every value and every part of it: after every program, `a.part = std::move(a)` is defined, but `a` is Null after it and its value is lost: of its nodes, only those below the part are released, the others are not, and belong to no variable. [C63_remove_leaks_fails] C63 fails: what `RemoveMember` removes is never released, after every program and for every document and key."
  },
  {
   "property": "C64",
   "status": "partial",
   "theorems": [
    "Caitlyn.C64_partial",
    "Caitlyn.C64_fails"
   ],
   "note": "[C64_partial] C64, for all errors but two: the messages are distinct. Missing: `InvalidEscapeSequence` and `OutOfRangeError`, which have the same message (`C64_fails`). [C64_fails] C64 fails."
  },
  {
   "property": "C65",
   "status": "proved",
   "theorems": [
    "Caitlyn.C65_complementary",
    "Caitlyn.C65_value",
    "Caitlyn.C65_error",
    "Caitlyn.C65_sum"
   ],
   "note": "[C65_complementary] C65: `HasValue` and `HasError` are complementary, on every object. [C65_value] C65: an object constructed from a value has it: the tag says so, `Get`, `Expect`, `UnwrapOr`, `UnwrapOrElse` and `Fold` give or use it, `GetError` throws `logic_error`, `ExpectError` throws `runtime_error`. [C65_error] C65: an object constructed from an error has it. [C65_sum] C65: copies hold the same, and every object a program can have is of one of the two kinds: `Get` and `GetError` never read the member of the union that is not alive."
  },
  {
   "property": "C66",
   "status": "proved",
   "theorems": [
    "Caitlyn.C66_short_circuit_error",
    "Caitlyn.C66_short_circuit_value",
    "Caitlyn.C66_runs_once",
    "Caitlyn.C66_functor",
    "Caitlyn.C66_functor_error",
    "Caitlyn.C66_monad",
    "Caitlyn.C66_monad_error",
    "Caitlyn.C66_map_is_andThen",
    "Caitlyn.C66_observers"
   ],
   "note": "[C66_short_circuit_error] C66: combinators on the value side do not run their function on an error and pass the error on; they leave the world as it was. [C66_short_circuit_value] C66: combinators on the error side do not run their function on a value and pass the value on. [C66_runs_once] C66: on their own side the combinators run the function exactly once and use its result. [C66_functor] C66: functor laws of `Map`, for functions with effects. [C66_functor_error] C66: functor laws of `MapError`. [C66_monad] C66: monad laws of `AndThen` (and of `Then`, which is the same code). [C66_monad_error] C66: the same laws for `OrElse` (and `CatchError`) on errors. [C66_map_is_andThen] C66: `Map` is `AndThen` with a wrapped result, as for every monad. [C66_observers] C66: `OnError` returns the object unchanged whenever its function returns, and `Inspect` runs exactly the function of the object's side."
  },
  {
   "property": "C67",
   "status": "partial",
   "theorems": [
    "Caitlyn.C67_no_throw_partial",
    "Caitlyn.C67_no_leak_partial",
    "Caitlyn.C67_exact_fails",
    "Caitlyn.C67_doomed_fails",
    "Caitlyn.C67_fails"
   ],
   "note": "[C67_no_throw_partial] C67 (part): over every history of construction (also throwing), copy, move, assignment (also to itself) and destruction of `Expected` variables, in which the copy made by an assignment does not throw, no contained object is used or destroyed while not alive; every contained object ever created is either alive, inside exactly one existing variable, or has been destroyed exactly once. [C67_no_leak_partial] C67 (part): once all variables are gone, everything created has been destroyed exactly once. [C67_exact_fails] C67 does not hold when copies may throw, exactly so: an assignment whose copy throws leaves a broken variable, and a history is undefined exactly when it uses one later (destroys it, assigns to it or from it, copies it). Otherwise every variable holds what the history says, every contained object ever created is alive or has been destroyed exactly once, and it is alive exactly when it is inside an existing variable that is not broken. [C67_doomed_fails] C67 does not hold when copies may throw: every assignment between two healthy variables that throws destroys the contents of its target for good, and no later statement gives them back: the target then can never be destroyed without undefined behaviour. [C67_fails] C67 does not hold when copies may throw: `Expected x{value}; Expected y{value}; try { x = y; } catch (...) {}` with a copy constructor that throws leaves `x` with its flag set but its value destroyed, and the destructor of `x` destroys the value again."
  },
  {
   "property": "C68",
   "status": "proved",
   "theorems": [
    "Caitlyn.C68_exactly_once",
    "Caitlyn.C68_unique_owner",
    "Caitlyn.C68_null"
   ],
   "note": "[C68_exactly_once] C68: over every history of `UniquePtr` variables nothing undefined happens; every variable owns what the history says; an object has exactly one owner and has not been deleted, or it has no owner and has been deleted exactly once. As this holds after every prefix of a history, an object is deleted by the very statement that takes its last owner away. [C68_unique_owner] C68: ownership is unique. [C68_null] C68: dereferencing a null pointer throws `runtime_error`."
  },
  {
   "property": "C69",
   "status": "partial",
   "theorems": [
    "Caitlyn.C69_no_early_delete_partial",
    "Caitlyn.C69_fails",
    "Caitlyn.C69_leaks_fails"
   ],
   "note": "[C69_no_early_delete_partial] C69 (part): over every history that does not copy-construct from an empty pointer, nothing undefined happens, and an object is never deleted twice and never deleted while a `SharedPtr` owns it. What is missing is that the object is deleted when the last owner goes (`C69_fails`). [C69_fails] C69 does not hold: `{ SharedPtr x{new T}; }` never deletes the object, and no history does. [C69_leaks_fails] C69 does not hold: in no history is anything ever deleted."
  },
  {
   "property": "C70",
   "status": "partial",
   "theorems": [
    "Caitlyn.C70_sharing_partial",
    "Caitlyn.C70_count_partial",
    "Caitlyn.C70_undefined_fails",
    "Caitlyn.C70_fails"
   ],
   "note": "[C70_sharing_partial] C70 (part): every `SharedPtr` points to the object the history says, and that object is alive; moved-from and reset pointers are empty. Missing: copy construction from an empty pointer (`C70_fails`). [C70_count_partial] C70 (part): the reference count shared by the owners of an object is the number of its owners, and two pointers share a count exactly when they point to the same object. [C70_undefined_fails] C70 does not hold for empty pointers, and for nothing else: a history is undefined exactly when somewhere in it a `SharedPtr` (or a `WeakPtr`, or by `lock()`) is copy-constructed from an empty one. [C70_fails] C70 does not hold for empty pointers: `SharedPtr x; SharedPtr y{x};` uses a null counter."
  },
  {
   "property": "C71",
   "status": "partial",
   "theorems": [
    "Caitlyn.C71_lock_partial",
    "Caitlyn.C71_fails",
    "Caitlyn.C71_never_fails"
   ],
   "note": "[C71_lock_partial] C71 (part): over every history, a `WeakPtr` that has not expired gives access to a live object: `lock()` (a copy construction from the pointer it holds) gives a pointer to that object. [C71_fails] C71 does not hold: after `SharedPtr x{new T}; WeakPtr y{x}; x.Reset();` there is no `SharedPtr` left, but `y` has not expired: it is an owner itself. [C71_never_fails] C71 does not hold, for any history: a `WeakPtr` made from a pointer to an object never expires as long as it is not itself assigned to, reset, moved or destroyed. Whatever becomes of the `SharedPtr`s, it refers to the object, which stays alive."
  },
  {
   "property": "C72",
   "status": "proved",
   "theorems": [
    "Caitlyn.C72_not_aliased",
    "Caitlyn.C72_exact",
    "Caitlyn.C72_aliased",
    "Caitlyn.C72_null"
   ],
   "note": "[C72_not_aliased] C72: for histories without aliases nothing undefined happens, and the objects deleted are, in order, exactly the pointees of the `Ptr`s on which `Reset` or `Destroy` was called, each once. [C72_exact] C72, all histories: with aliases the outcome is undefined exactly when a pointer to an object already deleted is dereferenced, `Reset` or `Destroy`ed; otherwise the deletions are those of the specification. [C72_aliased] Aliased `Ptr`s are deleted twice, and `x.Reset(x.Get())` leaves a dangling pointer. [C72_null] C72: dereferencing a null `Ptr` throws."
  },
  {
   "property": "C73",
   "status": "proved",
   "theorems": [
    "Caitlyn.C73_queue",
    "Caitlyn.C73_round_trip"
   ],
   "note": "[C73_queue] C73, every history of `WriteLine`, `AppendLine` and `ReadLine` in any order, on a file that holds lines already: the calls return what those of a queue of lines return. [C73_round_trip] C73. Lines written, then read: they come back in order after those the file held, and then the empty string."
  },
  {
   "property": "C74",
   "status": "proved",
   "theorems": [
    "Caitlyn.C74_step",
    "Caitlyn.C74_history"
   ],
   "note": "[C74_step] C74. A call other than `Erase`, in any state of the object, leaves the bytes of the file as they are and adds at the end the data it was given, or nothing. [C74_history] C74. In a program with any number of `File` objects of the file, as long as none calls `Erase`, the content at any time begins with the content at any earlier time."
  },
  {
   "property": "C75",
   "status": "partial",
   "theorems": [
    "Caitlyn.C75_good_partial",
    "Caitlyn.C75_closed_partial",
    "Caitlyn.C75_setPosition_partial",
    "Caitlyn.C75_dropped_fails",
    "Caitlyn.C75_after_end_fails",
    "Caitlyn.C75_open_fails"
   ],
   "note": "[C75_good_partial] C75, partial: on an open object whose stream is good, the data is added to the file. [C75_closed_partial] C75, partial: the same on a closed object, whatever its bits, if the file can be opened. [C75_setPosition_partial] C75, partial: the same after `SetPosition` on an open object, whatever its bits. [C75_dropped_fails] C75 is false as stated: on an open object whose stream is not good, writing does nothing, without an exception, and the stream stays so. [C75_after_end_fails] C75 is false as stated: the stream is not good after `ReadLine` has read the last line, for every content of the file and every number of lines already read. [C75_open_fails] C75 is false as stated: `Open` on an open object throws nothing and makes the stream useless: writes are dropped and `ReadLine` throws."
  },
  {
   "property": "C76",
   "status": "partial",
   "theorems": [
    "Caitlyn.C76_exact",
    "Caitlyn.C76_no_nul_fails",
    "Caitlyn.C76_text_fails",
    "Caitlyn.C76_nul_partial",
    "Caitlyn.C76_after_end_fails"
   ],
   "note": "[C76_no_nul_fails] C76 is false as stated: `Read` never returns the content. Without a NUL byte in the file it returns nothing at all ... [C76_text_fails] ... for text it is undefined behaviour: the buffer is read beyond its end ... [C76_nul_partial] ... and with a NUL byte it returns at most what stands before it. [C76_after_end_fails] C76. After the end was reached `Read` throws `std::length_error`, and from then on `ReadLine` throws."
  },
  {
   "property": "C77",
   "status": "partial",
   "theorems": [
    "Caitlyn.C77_lines",
    "Caitlyn.C77_end_of_input",
    "Caitlyn.C77_write_read",
    "Caitlyn.C77_char_partial",
    "Caitlyn.C77_fails"
   ],
   "note": "[C77_char_partial] C77. Partial: on a line that is not empty, `ReadChar` returns its first character and consumes the line. Missing: empty lines and the end of the input (`C77_fails`). [C77_fails] C77 is false for `ReadChar` on an empty line and at the end of the input: it reads the first element of an empty string."
  },
  {
   "property": "C78",
   "status": "partial",
   "theorems": [
    "Caitlyn.C78_exact",
    "Caitlyn.C78_once_partial",
    "Caitlyn.C78_fails"
   ],
   "note": "[C78_once_partial] C78. After any history, if the messages of all exceptions thrown by tests are readable, `RunAll` executes each registered test exactly once: the executions it adds are a permutation of the registrations. Missing: unreadable messages, see `C78_fails`. [C78_fails] C78 fails: a test that throws an exception with the byte `0xFF` in its message ends the whole run; the tests after it are never executed, and `RunAll` throws."
  },
  {
   "property": "C79",
   "status": "proved",
   "theorems": [
    "Caitlyn.C79_result",
    "Caitlyn.C79_listed",
    "Caitlyn.C79_skipped_wraps"
   ],
   "note": "[C79_result] C79. After any history, if `RunAll` returns, the value is 0 exactly when every execution so far, in this or an earlier run, has returned or has ended its run with an unreadable message, and 1 otherwise. If all messages are readable, the counters are the numbers of executions so far that have returned and that have thrown. [C79_listed] C79, the summary: after a run with at least one failure so far, the tests listed as failed are exactly the tests whose execution in this run threw an exception, in order. [C79_skipped_wraps] C79, repeated runs: the second `RunAll` of a registry with one test computes a `skipped` count that has wrapped around below zero."
  },
  {
   "property": "C80",
   "status": "proved",
   "theorems": [
    "Caitlyn.C80_bad_arguments",
    "Caitlyn.C80_once"
   ],
   "note": "[C80_bad_arguments] C80, the precondition is needed: with an argument that is not ended by a NUL byte, or with fewer arguments than announced, the memory behind is read. [C80_once] C80. In every sequence of initialisation calls, of either kind, the first succeeds and stores exactly the arguments it announces, and every later one throws `runtime_error` and changes nothing."
  },
  {
   "property": "C81",
   "status": "proved",
   "theorems": [
    "Caitlyn.C81_eq",
    "Caitlyn.C81_less",
    "Caitlyn.C81_builtin_differs",
    "Caitlyn.C81_builtin_exact",
    "Caitlyn.C81_builtin_wrong"
   ],
   "note": "[C81_eq] C81. `cmp_eq` compares the mathematical values, for all integer types and values. [C81_less] C81. `cmp_less` compares the mathematical values, for all integer types and values. [C81_builtin_differs] C81, why the functions are needed: the built-in operators get mixed signs wrong. [C81_builtin_exact] C81: exactly what `t < u` and `t == u` give without the functions, for all integer types and values. [C81_builtin_wrong] C81: so the comparison is wrong exactly if one operand is negative and the other unsigned and not narrower, and as an unsigned number the first is not less."
  },
  {
   "property": "C82",
   "status": "proved",
   "theorems": [
    "Caitlyn.C82_aligned",
    "Caitlyn.C82_ordered"
   ],
   "note": "[C82_aligned] C82. The keys and values of any map are those of its elements in iteration order: pairing them up gives the elements back. [C82_ordered] C82. For a map built by any history of assignments, with any strict total order of keys, the keys are strictly ascending, and a key and a value are at the same position exactly if the last assignment to that key was that value."
  },
  {
   "property": "C83",
   "status": "partial",
   "theorems": [
    "Caitlyn.C83_zero",
    "Caitlyn.C83_exact",
    "Caitlyn.C83_partial",
    "Caitlyn.C83_fails"
   ],
   "note": "[C83_partial] C83, partial: for non-negative numbers that both have no fraction, or both have one and the divisor's is not longer, the quotient is the exact one, cut off after as many digits as the dividend's fraction is longer -- unless the digits kept begin with zero. Missing: negative numbers, and all other lengths. [C83_fails] C83 is false as stated: 1 / 0.5 exhausts the memory, 2.5 / 5 = 0 and 15.5 / 5 = 0.3: a tenth of the quotient, cut off. (7.5 / 2.5 = 3 and 1 / 3 = 0 are cases of `C83_partial`.)"
  },
  {
   "property": "C84",
   "status": "partial",
   "theorems": [
    "Caitlyn.C84_small",
    "Caitlyn.C84_integers_fails",
    "Caitlyn.C84_fails"
   ],
   "note": "[C84_integers_fails] C84 is false as stated: the power of an integer is `100 ^ e` times too large, for every base and exponent. [C84_fails] C84 is false as stated also for fractions: 2.5 to the power 1 is 25."
  },
  {
   "property": "C85",
   "status": "partial",
   "theorems": [
    "Caitlyn.C85_itself_fails",
    "Caitlyn.C85_diverges_fails",
    "Caitlyn.C85_integers_fails",
    "Caitlyn.C85_fails"
   ],
   "note": "[C85_itself_fails] C85. `Sqrt` of a number below 1, or of 1, is the number itself: correct for 0 and 1 only. No exception for negative numbers. [C85_diverges_fails] C85 is false as stated: `Sqrt` of a number above 1 with a fraction never returns. [C85_integers_fails] C85 is false as stated: `Sqrt` of an integer above 1 returns the integer part of a tenth of the root. [C85_fails] C85 is false as stated: the roots of 16, 400 and 2 are 0, 2 and 0; the root of -16.5 is -16.5."
  },
  {
   "property": "C86",
   "status": "partial",
   "theorems": [
    "Caitlyn.C86_copy",
    "Caitlyn.C86_move",
    "Caitlyn.C86_abs_nonneg",
    "Caitlyn.C86_abs_fails",
    "Caitlyn.C86_size"
   ],
   "note": "[C86_abs_fails] C86 is false as stated: `Abs` of a negative number is that negative number."
  },
  {
   "property": "C87",
   "status": "partial",
   "theorems": [
    "Caitlyn.C87_erase",
    "Caitlyn.C87_partial",
    "Caitlyn.C87_exact",
    "Caitlyn.C87_fails"
   ],
   "note": "[C87_partial] C87, partial: if nothing was read before, what is written afterwards is read from its beginning. [C87_fails] C87 is false as stated: the read position stays. A line written after `Erase` is not read if a longer one was read before, and `ReadLine` throws if the end was reached before."
  },
  {
   "property": "C88",
   "status": "partial",
   "theorems": [
    "Caitlyn.C88_restore",
    "Caitlyn.C88_fails"
   ],
   "note": "[C88_fails] C88 is false as stated at the end of the file: `GetPosition` returns -1 there, and `SetPosition` of that throws."
  },
  {
   "property": "C89",
   "status": "partial",
   "theorems": [
    "Caitlyn.C89_report",
    "Caitlyn.C89_fails_duration",
    "Caitlyn.C89_fails_second_run"
   ],
   "note": "[C89_fails_duration] C89 fails for the durations of failed tests: here a test fails after 7 milliseconds, and the report says 0. [C89_fails_second_run] C89 fails for repeated runs: the counters are not reset, so after two runs of one passing test the report says that two tests passed."
  },
  {
   "property": "C90",
   "status": "partial",
   "theorems": [
    "Caitlyn.C90_compare",
    "Caitlyn.C90_once",
    "Caitlyn.C90_twice_fails",
    "Caitlyn.C90_true_false",
    "Caitlyn.C90_else_fails",
    "Caitlyn.C90_semicolon_fails",
    "Caitlyn.C90_compare_else_fails"
   ],
   "note": "[C90_twice_fails] C90 fails for operands with side effects: to print the message the operands are evaluated again. Here the operand is a counter that is incremented by its evaluation; `ASSERT_EQ(next(), 1)` fails, the counter is then 2, and the message claims `1 != 1`. [C90_else_fails] C90 fails inside an `if` statement with `else`: the `else` belongs to the `if` of the macro. So `if (c) ASSERT_TRUE(x); else S` does nothing if `c` is false, and executes `S` if `c` and `x` are true. Here `x` stands for the negated condition of the macro, and `n` for the statement `S`. [C90_semicolon_fails] C90 fails for the comparing macros with `else`, too: written with a semicolon as `if (c) ASSERT_EQ(a, b); else S`, a function body does not compile, whatever follows, since the semicolon after the block ends the `if` statements. [C90_compare_else_fails] C90: without the semicolon, `if (c) ASSERT_EQ(a, b) else S`, it compiles, and as with `ASSERT_TRUE` the `else` belongs to the `if` of the macro."
  },
  {
   "property": "C91",
   "status": "partial",
   "theorems": [
    "Caitlyn.C91_streq_passes",
    "Caitlyn.C91_streq_fails",
    "Caitlyn.C91_evaluations_fails",
    "Caitlyn.C91_message",
    "Caitlyn.C91_rest_fails",
    "Caitlyn.C91_bare_fails"
   ],
   "note": "[C91_streq_fails] C91 fails: an `ASSERT_STREQ` that does not hold names the two texts, and then ends the process instead of the test. [C91_evaluations_fails] C91 fails: `ASSERT_STREQ` evaluates its operands up to four times, exactly as often as given here, and never both only once unless both are null. So an operand with a side effect is not compared as it was written. [C91_rest_fails] C91 fails: of `FAIL_MESSAGE() << v << ...` only the first value is reported and evaluated. [C91_bare_fails] C91 fails: `FAIL_MESSAGE();` without a message does not fail the test."
  },
  {
   "property": "C92",
   "status": "partial",
   "theorems": [
    "Caitlyn.C92_first_failure",
    "Caitlyn.C92_readable_partial",
    "Caitlyn.C92_fails"
   ],
   "note": "[C92_readable_partial] C92, the texts of the operands and of the values being well-formed UTF-8: the message of a failed comparison can be shown, so it ends the test but not the run. [C92_fails] C92 fails: a failed comparison of two `Char`s, one of which holds the single byte `0xE4`, has a message that cannot be shown; the run ends with it."
  },
  {
   "property": "C93",
   "status": "partial",
   "theorems": [
    "Caitlyn.C93_append_exact",
    "Caitlyn.C93_append_pattern",
    "Caitlyn.C93_unchanged_partial",
    "Caitlyn.C93_fails"
   ],
   "note": "[C93_unchanged_partial] C93, partial: an `Append(const char*)` that throws leaves the string as it was if the first character of the argument is the malformed one. Missing: malformed input later on. [C93_fails] C93 fails: `Append(\"ab\\xFF\")` throws and leaves \"ab\" appended."
  },
  {
   "property": "C94",
   "status": "proved",
   "theorems": [
    "Caitlyn.C94_find_if",
    "Caitlyn.C94_find_if_not"
   ],
   "note": "[C94_find_if] C94. `FindIf(p, pos)` with `pos <= size()` returns the least index from `pos` on whose character satisfies `p`, and NPosition if there is none. [C94_find_if_not] C94. `FindIfNot(p, pos)` is `FindIf` of the negated predicate; a start position behind the end is undefined behaviour for both."
  },
  {
   "property": "C95",
   "status": "partial",
   "theorems": [
    "Caitlyn.C95_constructors",
    "Caitlyn.C95_append_value",
    "Caitlyn.C95_append_own_exact",
    "Caitlyn.C95_fails"
   ],
   "note": "[C95_fails] C95 fails: appending its own first character twice to a string with full storage, as every copy of a string has, is undefined behaviour, for every string and every growth strategy."
  },
  {
   "property": "C96",
   "status": "partial",
   "theorems": [
    "Caitlyn.C96_is_number",
    "Caitlyn.C96_ascii",
    "Caitlyn.C96_fails"
   ],
   "note": "[C96_fails] C96 fails for bytes that are not ASCII: a character made from the byte 0xF0 alone is read past its end."
  },
  {
   "property": "C97",
   "status": "proved",
   "theorems": [
    "Caitlyn.C97_order",
    "Caitlyn.C97_code_points"
   ],
   "note": "[C97_order] C97. The six comparison operators of `Char` come from one total order: `<` is irreflexive, transitive and total, the others are its converse and their negations, and `==` holds exactly for characters not ordered either way. [C97_code_points] C97. On the characters made from code points the order is the order of the code points."
  },
  {
   "property": "C98",
   "status": "partial",
   "theorems": [
    "Caitlyn.C98_double",
    "Caitlyn.C98_value_partial",
    "Caitlyn.C98_not_finite",
    "Caitlyn.C98_fails",
    "Caitlyn.C98_cstr"
   ],
   "note": "[C98_value_partial] C98, partial: the value of the object is the value of the `double` rounded to six decimals exactly if the first decimal is not 0 (or all decimals are) and a negative number is not above -1 (or is zero). [C98_fails] C98 fails: the object made from 0.0625 prints as 0.62500, the one made from -0.5 as 0.500000."
  },
  {
   "property": "C99",
   "status": "partial",
   "theorems": [
    "Caitlyn.C99_values",
    "Caitlyn.C99_error",
    "Caitlyn.C99_stream_partial",
    "Caitlyn.C99_fails",
    "Caitlyn.C99_fails_error_kept"
   ],
   "note": "[C99_stream_partial] C99. Reading from a stream (constructor, `Parse`, assignment or `>>`) is parsing the text it holds, for streams that hold well-formed UTF-8 without NUL. [C99_fails] C99 fails for streams with NUL bytes: what follows is dropped, and malformed text is accepted. [C99_fails_error_kept] C99 fails for the error flag after changes: a document whose parsing failed and which then was filled reports an error although it holds an object."
  },
  {
   "property": "C100",
   "status": "partial",
   "theorems": [
    "Caitlyn.C100_written",
    "Caitlyn.C100_answers",
    "Caitlyn.C100_input_kept",
    "Caitlyn.C100_flushed",
    "Caitlyn.C100_fails"
   ],
   "note": "[C100_fails] C100 fails for `ReadLine`: the end of the input cannot be told from an empty line."
  },
  {
   "property": "C101",
   "status": "partial",
   "theorems": [
    "Caitlyn.C101_qualifiers",
    "Caitlyn.C101_remove_exact",
    "Caitlyn.C101_remove_partial",
    "Caitlyn.C101_fails_remove_const",
    "Caitlyn.C101_references_partial",
    "Caitlyn.C101_fails_references",
    "Caitlyn.C101_pointers_partial",
    "Caitlyn.C101_exist",
    "Caitlyn.C101_categories",
    "Caitlyn.C101_fails_rvalue",
    "Caitlyn.C101_numbers_partial",
    "Caitlyn.C101_fails_const",
    "Caitlyn.C101_signs_partial",
    "Caitlyn.C101_queries_partial",
    "Caitlyn.C101_fails_queries",
    "Caitlyn.C101_required",
    "Caitlyn.C101_operators_partial",
    "Caitlyn.C101_fails_operators"
   ],
   "note": "[C101_remove_partial] C101. `RemoveConstType` removes just `const` if the type is not `volatile`, and `RemoveVolatileType` just `volatile` if it is not `const`. Missing: the other types, see `C101_fails_remove_const`. [C101_fails_remove_const] C101 fails: `RemoveConstType<const volatile int>` is `int` where `volatile int` is asked for. [C101_references_partial] C101. References: `RemoveReferenceType` gives the type referred to, `AddRValueReferenceType` adds `&&` with collapsing to every referenceable type and leaves the others, `AddLValueReferenceType` adds `&` likewise except on `T&&`. [C101_fails_references] C101 fails: `AddLValueReferenceType<T&&>` is `T&&`, not `T&`; `AddPointerType` of a reference is the reference, not a pointer to what it refers to. [C101_pointers_partial] C101. Pointers: on every existing type but references, `AddPointerType` is the type of its addresses if there are any, and `RemovePointerType` takes off one pointer, whatever its qualifiers. [C101_fails_rvalue] C101 fails: `IsRValueReference` is true exactly on lvalue references. [C101_numbers_partial] C101. Numbers: `IsCharacter`, `IsInteger`, `IsFloating` recognise exactly the unqualified types of their lists, and `IsIntegral` these and `bool`. Missing: qualified types, see `C101_fails_const`. [C101_fails_const] C101 fails: no qualified type but `bool` counts as a number: `IsIntegral<const int>()` is false, `IsIntegral<const bool>()` true. [C101_signs_partial] C101. `MakeSignedType` and `MakeUnsignedType` give the signed and the unsigned type of the same width for each signed or unsigned integer type and `char`, and exist for no other type. Missing: the other types for which the standard defines them, that is qualified types, wide characters and enumerations. [C101_queries_partial] C101. `Rank` and `Extent` only say whether rank and extent are zero. [C101_fails_queries] C101 fails: the number of dimensions, the bound and the alignment are lost. [C101_operators_partial] C101. Each operator detector but one tests its own operator. [C101_fails_operators] C101 fails: `HasBitwiseOrOperatorType` tests `&`; input from a stream is tested with a value that cannot be read into, so a type that can only be read into variables (as `int`) is said to have no input operator."
  },
  {
   "property": "C102",
   "status": "partial",
   "theorems": [
    "Caitlyn.C102_exact",
    "Caitlyn.C102_str",
    "Caitlyn.C102_accumulates_partial",
    "Caitlyn.C102_no_copies",
    "Caitlyn.C102_fails_copy",
    "Caitlyn.C102_fails_null"
   ],
   "note": "[C102_accumulates_partial] C102: what makes a builder the concatenation of the pieces appended to it: it was not copied from another (moving is fine). [C102_fails_copy] C102 does not hold for copies: a copy of \"abc\" to which \"X\" is appended is \"Xbc\" (the original stays \"abc\"). [C102_fails_null] C102 does not hold for a builder made from a null pointer: everything appended to it is lost."
  },
  {
   "property": "C103",
   "status": "partial",
   "theorems": [
    "Caitlyn.C103_range",
    "Caitlyn.C103_reaches_all",
    "Caitlyn.C103_default",
    "Caitlyn.C103_value_range",
    "Caitlyn.C103_fails_order",
    "Caitlyn.C103_real_partial",
    "Caitlyn.C103_fails_default_double",
    "Caitlyn.C103_fails_wide",
    "Caitlyn.C103_boolean_rejects",
    "Caitlyn.C103_boolean",
    "Caitlyn.C103_boolean_share",
    "Caitlyn.C103_boolean_certain",
    "Caitlyn.C103_fails_nan"
   ],
   "note": "[C103_fails_order] C103 does not hold when `min > max`: the behaviour is undefined, no exception is thrown. [C103_real_partial] C103 (part, rounding is not modelled): a floating point call returns a number from `min` up to, but not including, `max`, if their difference is a number of the type. [C103_fails_default_double] C103 does not hold for the default range of `Double`: the call without arguments never gives a negative number or zero. [C103_fails_wide] C103 does not hold for wide ranges of `Double`: `Random(-max, max)` is undefined. [C103_fails_nan] C103 does not hold for NaN: it passes the check and the behaviour is undefined."
  },
  {
   "property": "C104",
   "status": "partial",
   "theorems": [
    "Caitlyn.C104_threads",
    "Caitlyn.C104_undisturbed",
    "Caitlyn.C104_fails_leak"
   ],
   "note": "[C104_fails_leak] C104 does not hold in full: when all threads and the main program have dropped their pointers, the object is still not deleted."
  },
  {
   "property": "C105",
   "status": "proved",
   "theorems": [
    "Caitlyn.C105_unique",
    "Caitlyn.C105_shared",
    "Caitlyn.C105_lock",
    "Caitlyn.C105_raw"
   ],
   "note": "[C105_unique] C105, `UniquePtr`: after every history, a variable is equal to `nullptr` exactly if the history left it empty, and two different variables are equal exactly if both are empty. `Get()` is the object owned. `!=` is the opposite of `==`. [C105_shared] C105, `SharedPtr` and `WeakPtr`: after every history (that copy-constructs from no empty pointer) a variable is equal to `nullptr` exactly if the history left it empty, and two variables are equal exactly if the history left them with the same object, or both empty; equal pointers that are not empty share one counter. [C105_lock] C105, `lock()`: on a `WeakPtr` that has expired it returns an empty pointer and changes no counter; on another it returns a pointer equal to the one held, with a live object, and adds one to its counter. [C105_raw] C105, `Ptr`: after every history without aliases, a `Ptr` is equal to `nullptr` exactly if the history left it null, and two `Ptr`s are equal exactly if the history left them with the same pointee or both null."
  },
  {
   "property": "C106",
   "status": "partial",
   "theorems": [
    "Caitlyn.Def.C106_ascii_partial",
    "Caitlyn.Def.C106_names",
    "Caitlyn.Def.C106_null_fails",
    "Caitlyn.Def.C106_literal"
   ],
   "note": "[C106_ascii_partial] **C106 (the constants are the characters).** For every code point from 1 to 127, the constant at that place is the C string of exactly that byte; the `Char` and the `String` made from it are the character with that code point and the string of it. [C106_null_fails] **C106 fails for `Def::Null`.** The constant is the empty C string, the same as `Def::Empty`: neither the `Char` nor the `String` made from it is the character NUL, both are empty."
  },
  {
   "property": "C107",
   "status": "partial",
   "theorems": [
    "Caitlyn.CharUtil.C107_space",
    "Caitlyn.CharUtil.C107_digit_partial",
    "Caitlyn.CharUtil.C107_digit_fails",
    "Caitlyn.CharUtil.C107_value_fails",
    "Caitlyn.CharUtil.C107_case_partial",
    "Caitlyn.CharUtil.C107_case_fails",
    "Caitlyn.CharUtil.C107_class_partial",
    "Caitlyn.CharUtil.C107_class_fails"
   ],
   "note": "[C107_digit_partial] **C107 (digits).** `IsDigit` is true exactly of the decimal digits of the Basic Multilingual Plane that are not those of Sinhala Lith. [C107_digit_fails] **C107 fails for some digits.** The digits of Sinhala Lith are decimal digits and `IsDigit` denies it; so it does for every code point above U+FFFF, where there are digits too (such as U+1D7CE, MATHEMATICAL BOLD DIGIT ZERO). [C107_value_fails] **C107 fails for the value of digits.** `ToDigit` gives the value of the ten ASCII digits and -1 for every other digit that `IsDigit` accepts. [C107_case_partial] **C107 (upper case).** The two functions agree with the simple case mappings of Unicode on the letters of ASCII, of most of Latin Extended-A, and of the basic Greek and Cyrillic alphabets, `ToLowercase` also on some of Greek Extended. [C107_case_fails] **C107 fails for every other row.** For every other pair of letters of the same blocks one of the two letters is mapped to something else: `ToUppercase` for Latin-1 (é), half of the accented letters of Latin Extended-A (ź, ŀ), Greek with accent (ά), Cyrillic beyond Russian (ё) and all of Greek Extended; `ToLowercase` for the same but the rows of Greek Extended above. [C107_class_partial] **C107 (the classes do not mix).** In none of the rows is an upper case letter classified as lower case or conversely; outside Latin Extended-A a pair that both functions map rightly is classified rightly. [C107_class_fails] **C107 fails for the classes in Latin Extended-A.** No letter of that block, apart from the special cases U+0130, U+0131 and U+0149, is a letter for the library, although the functions map many of them."
  },
  {
   "property": "C108",
   "status": "partial",
   "theorems": [
    "Caitlyn.TestDecl.C108_builds_partial",
    "Caitlyn.TestDecl.C108_registers",
    "Caitlyn.TestDecl.C108_once_partial",
    "Caitlyn.TestDecl.C108_underscore_fails",
    "Caitlyn.TestDecl.C108_fixture_fails",
    "Caitlyn.TestDecl.C108_fixture"
   ],
   "note": "[C108_builds_partial] **C108 (building).** A program whose tests have plain names and are pairwise apart can be built: no translation unit declares a name twice and no symbol is defined twice, however the tests are distributed over translation units. Missing: names with underscores and two `TEST_F`s with the same case name, see `C108_underscore_fails` and `C108_fixture_fails`. [C108_once_partial] **C108 (each test runs once).** A program that can be built runs, in `main`, each declared test exactly once under its own names, whatever the distribution over translation units and the order of initialisation, if the messages of exceptions are readable (see C78). [C108_underscore_fails] **C108 fails with underscores.** `TEST(A_B, C)` and `TEST(A, B_C)` are different tests and cannot be in one program, be it in different translation units. [C108_fixture_fails] **C108 fails for fixtures.** Two tests of the same name in different fixtures can never be in one program: `TEST_F` makes its names from the case alone."
  },
  {
   "property": "C109",
   "status": "partial",
   "theorems": [
    "Caitlyn.C109_line",
    "Caitlyn.C109_roundtrip",
    "Caitlyn.C109_lines_partial",
    "Caitlyn.C109_fails",
    "Caitlyn.C109_malformed",
    "Caitlyn.C109_end"
   ],
   "note": "[C109_lines_partial] **C109 (all lines).** If every line of the text is ended by a newline, `while (is >> str)` visits exactly the lines, in order, and ends. Missing: texts whose last line is not ended, see `C109_fails`. [C109_fails] **C109 fails for a last line without newline.** `while (is >> str)` visits the lines and then visits the last line for ever: the extraction that meets the end of the text sets `eofbit`, and from then on `>>` neither assigns nor fails."
  },
  {
   "property": "C110",
   "status": "partial",
   "theorems": [
    "Caitlyn.C110_forward",
    "Caitlyn.C110_rvalue",
    "Caitlyn.C110_move_partial",
    "Caitlyn.C110_move_fails",
    "Caitlyn.C110_signed_partial",
    "Caitlyn.C110_signed_fails",
    "Caitlyn.C110_compiles",
    "Caitlyn.C110_signed_compiles"
   ],
   "note": "[C110_move_partial] **C110 (moving).** `MakeMovable` of a variable of object type is an xvalue of the same type, qualifiers included. It does not compile for temporaries, which `std::move` takes, unless they are `const`. [C110_move_fails] **C110 fails for moving temporaries.** [C110_signed_partial] **C110 (signedness).** Where `IsSigned` and `IsUnsigned` compile, they agree with `std::is_signed` and `std::is_unsigned`, on every platform. [C110_signed_fails] **C110 fails for other types.** `IsSigned<void>()` and `IsSigned<std::nullptr_t>()` do not compile, nor does it for a class without conversion from `int` such as `String`; the standard traits are false there."
  },
  {
   "property": "C111",
   "status": "partial",
   "theorems": [
    "Caitlyn.C111_places_partial",
    "Caitlyn.C111_no_places",
    "Caitlyn.C111_other_types",
    "Caitlyn.C111_too_large_fails",
    "Caitlyn.C111_round_fails",
    "Caitlyn.C111_exponent_fails",
    "Caitlyn.C111_zero_fails"
   ],
   "note": "[C111_places_partial] C111. Partial: type `f` and a precision `p ≥ 1` write the number with exactly `p` places, padded to the width; a point and zeros are added if there are too few digits. Missing: the number is cut, not rounded (`C111_round_fails`), the rest of the text after the fraction digits is dropped (`C111_exponent_fails`), and with `p = 0` the point stays (`C111_zero_fails`, exact behaviour in `C111_no_places`). [C111_too_large_fails] C111, numbers too large: a width of `2^64` or more or a precision of `2^31` or more leaves the function by `std::out_of_range`, not by the library's `FormatError`. [C111_round_fails] C111, the number is cut, not rounded. [C111_exponent_fails] C111, an exponent is dropped: the result is ten orders of magnitude off. [C111_zero_fails] C111, with precision 0 or without a precision a point is left at the end."
  },
  {
   "property": "C112",
   "status": "partial",
   "theorems": [
    "Caitlyn.C112_integers_partial",
    "Caitlyn.C112_bool",
    "Caitlyn.C112_strings",
    "Caitlyn.C112_floating_partial",
    "Caitlyn.C112_classes",
    "Caitlyn.C112_compiles",
    "Caitlyn.C112_format",
    "Caitlyn.C112_characters_fails",
    "Caitlyn.C112_bytes_fails",
    "Caitlyn.C112_volatile_fails",
    "Caitlyn.C112_null_fails",
    "Caitlyn.C112_words",
    "Caitlyn.C112_small_fails"
   ],
   "note": "[C112_integers_partial] C112. Partial: an integer is written in decimal. Missing: `signed char` and `unsigned char` (so `Int8`, `UInt8`), which are rejected (`C112_bytes_fails`), and volatile integers (`C112_volatile_fails`). [C112_floating_partial] C112. Partial: a finite floating point number is written with six decimals as a numeral that differs from it by at most half a millionth. Missing: numbers that are smaller or need more digits (`C112_small_fails`). [C112_characters_fails] C112 fails for characters: `Format(\"{}\", 'a')` is \"97\"; every character type is written as a number. [C112_bytes_fails] C112 fails for `signed char` and `unsigned char`, the types of `Int8` and `UInt8`: they are integers and characters, so two templates fit and the call is ambiguous. [C112_volatile_fails] C112 fails for volatile numbers: no function fits. [C112_null_fails] C112 fails for `nullptr`: it is taken for a C string and dereferenced, although `String::ValueOf(nullptr)` is \"null\". [C112_small_fails] C112 fails for small numbers: 2^-24, about 6·10^-8, is written as 0."
  },
  {
   "property": "C113",
   "status": "partial",
   "theorems": [
    "Caitlyn.C113_unavailable",
    "Caitlyn.C113_available",
    "Caitlyn.C113_unnamed",
    "Caitlyn.C113_make",
    "Caitlyn.C113_setPosition",
    "Caitlyn.C113_readLine",
    "Caitlyn.C113_readLine_ready",
    "Caitlyn.C113_kind_partial"
   ],
   "note": "[C113_kind_partial] C113. Partial: every exception thrown by a call other than `Read` and `ReadLine` is a `runtime_error`. Missing: `Read` throws `length_error` once the end has been reached (`C76_after_end_fails`)."
  },
  {
   "property": "C114",
   "status": "partial",
   "theorems": [
    "Caitlyn.C114_sum_partial",
    "Caitlyn.C114_independent",
    "Caitlyn.C114_swap",
    "Caitlyn.C114_fails",
    "Caitlyn.C114_exact_fails"
   ],
   "note": "[C114_sum_partial] C114. Partial: in every program in which no assignment throws, the variables behave like variables of a sum type: what every statement gives, and the variables after it, are those of the intended meaning, and nothing is undefined. Constructors may throw. Missing: assignments that throw (`C114_fails`). [C114_fails] C114 fails if an assignment throws: the flag then names an object that does not exist, so that the end of the variable's lifetime and every assignment to it are undefined, and so is asking for what it seems to hold. [C114_exact_fails] C114 fails if an assignment throws, exactly so: for every program, with constructors and assignments throwing where they like, what the statements give and the variables after it are those of `Cells`, in which a variable whose assignment threw has lost its contents; and the program is undefined exactly when it needs the contents of such a variable, be it only to destroy or to replace them."
  },
  {
   "property": "C115",
   "status": "partial",
   "theorems": [
    "Caitlyn.C115_items",
    "Caitlyn.C115_exact",
    "Caitlyn.C115_kinds",
    "Caitlyn.C115_undefined",
    "Caitlyn.C115_no_holes",
    "Caitlyn.C115_digits_fails",
    "Caitlyn.C115_accepts_fails"
   ],
   "note": "[C115_digits_fails] C115 fails for digits of other scripts: they start an index or a width, but cannot be read, and `invalid_argument` leaves the function. [C115_accepts_fails] C115 fails for wrong placeholders, which are not reported: text after an index makes the placeholder vanish, a word is taken for a plain placeholder, and what follows a specification is ignored."
  },
  {
   "property": "C116",
   "status": "partial",
   "theorems": [
    "Caitlyn.C116_exact",
    "Caitlyn.C116_code_unit",
    "Caitlyn.C116_four_digits_fails",
    "Caitlyn.C116_errors",
    "Caitlyn.C116_errors_all",
    "Caitlyn.C116_errors_fails",
    "Caitlyn.C116_kinds",
    "Caitlyn.C116_no_escape",
    "Caitlyn.C116_brackets"
   ],
   "note": "[C116_four_digits_fails] C116: the four characters behind `\\u` need not be digits, against RFC 8259. [C116_errors_fails] C116 fails for the errors that name what is wrong with a value: a number that is out of range or wrong, a literal that is wrong and an object or array that is not closed are reported as an unexpected character, or as no JSON at all."
  },
  {
   "property": "C117",
   "status": "partial",
   "theorems": [
    "Caitlyn.C117_accepted",
    "Caitlyn.C117_arch_partial",
    "Caitlyn.C117_arch_fails",
    "Caitlyn.C117_os_partial",
    "Caitlyn.C117_os_fails",
    "Caitlyn.C117_compiler_partial",
    "Caitlyn.C117_compiler_fails",
    "Caitlyn.C117_info_partial",
    "Caitlyn.C117_each_macro",
    "Caitlyn.C117_two_macros",
    "Caitlyn.C117_standard_macro",
    "Caitlyn.C117_standard",
    "Caitlyn.C117_between_partial",
    "Caitlyn.C117_monotone",
    "Caitlyn.C117_version",
    "Caitlyn.C117_version_fails"
   ],
   "note": "[C117_arch_partial] C117: the processor is recognised, except ARM processors of 64 bits with pointers of that size outside Windows, and so are its bits on every target. [C117_arch_fails] C117 fails: ARM processors of 64 bits under Linux, Android and Apple's systems are taken for x86-64, because `__LP64__` is asked for first. [C117_os_partial] C117: the system is recognised unless it is Android. [C117_os_fails] C117 fails for Android: its compilers define `__linux__`, which is asked for first, and `GetSystemName` returns \"Linux\". [C117_compiler_partial] C117: the compiler is recognised unless it is Intel's. [C117_compiler_fails] C117 fails for Intel's compiler, which is taken for the one whose interface it has. [C117_info_partial] C117: on every target but Android `GetSystemName` returns the name of the system, and but for Intel's compiler `GetCompilerInfo` the name and version of the compiler. [C117_between_partial] C117: also for the values between, which compilers have for a standard to come: a macro is 1 exactly if the value is at least that of the standard, except that 202300 and 202301 count as C++23 already. [C117_version_fails] C117 fails for the version of a later release: the last number is that of the minor version again."
  },
  {
   "property": "C118",
   "status": "partial",
   "theorems": [
    "Caitlyn.C118_widths",
    "Caitlyn.C118_types",
    "Caitlyn.C118_size",
    "Caitlyn.C118_pointers_partial",
    "Caitlyn.C118_pointers_fails",
    "Caitlyn.C118_same_partial",
    "Caitlyn.C118_same_fails"
   ],
   "note": "[C118_pointers_partial] C118: `IntPtr` and `UIntPtr` have the bits of a pointer exactly where pointers have 64 bits. [C118_pointers_fails] C118 fails where pointers have 32 bits: `IntPtr` has 64. [C118_same_partial] C118: `Int64` is `std::int64_t` except on Apple's systems. [C118_same_fails] C118 fails on Apple's systems of 64 bits: `Int64` is `long`, `std::int64_t` is `long long`, two types that overload differently."
  },
  {
   "property": "C119",
   "status": "partial",
   "theorems": [
    "Caitlyn.C119_any_order",
    "Caitlyn.C119_internal_partial",
    "Caitlyn.C119_public_fails"
   ],
   "note": "[C119_internal_partial] C119, also where the case of letters counts: the same for the internal headers. [C119_public_fails] C119 fails where the case of letters counts, as under Linux: no header for users can be included, because `__Caitlyn.h` includes \"caitlyn/__caitlyn/application.h\"."
  },
  {
   "property": "C120",
   "status": "partial",
   "theorems": [
    "Caitlyn.C120_internal_partial",
    "Caitlyn.C120_fails"
   ],
   "note": "[C120_internal_partial] C120: a program of any number of translation units that include internal headers links: nothing is defined twice. [C120_fails] C120 fails where the file system ignores case and the headers for users can be included: a program of which two translation units include one of them does not link, because Application.h defines its static members in each."
  },
  {
   "property": "C121",
   "status": "partial",
   "theorems": [
    "Caitlyn.C121_exact",
    "Caitlyn.C121_one_partial",
    "Caitlyn.C121_one_fails",
    "Caitlyn.C121_composite_partial",
    "Caitlyn.C121_composite_fails",
    "Caitlyn.C121_qualifiers",
    "Caitlyn.C121_constant"
   ],
   "note": "[C121_one_partial] C121: a type that is neither a reference nor a qualified number belongs to exactly one primary category. [C121_one_fails] C121 fails for references and qualified numbers: `int&` is in two categories; `int&&` and `const int` are in none. [C121_composite_partial] C121: the composite categories are the unions of the primary ones as the standard defines them, except for references and qualified numbers. [C121_composite_fails] C121 fails: a qualified number is arithmetic, but neither integral nor floating."
  },
  {
   "property": "C122",
   "status": "partial",
   "theorems": [
    "Caitlyn.C122_destroy",
    "Caitlyn.C122_compiles_partial",
    "Caitlyn.C122_compiles_fails",
    "Caitlyn.C122_nothrow_partial",
    "Caitlyn.C122_nothrow_fails",
    "Caitlyn.C122_abilities",
    "Caitlyn.C122_regular_partial",
    "Caitlyn.C122_regular_fails",
    "Caitlyn.C122_table",
    "Caitlyn.C122_rules"
   ],
   "note": "[C122_compiles_partial] C122: if a trait says that the library's type has an operation, then the operation compiles. [C122_compiles_fails] C122 fails: `Expected` always claims to be copyable, but copying compiles only if both of its types can be copied; the assignments of a plain pointer to `UniquePtr` and `SharedPtr` are found, but never compile. [C122_nothrow_partial] C122: if a trait says that an operation does not throw, nothing is thrown in it, so that `std::terminate` is not called. [C122_nothrow_fails] C122 fails: these operations are said not to throw, but what they do may throw, and then the program ends. Moving a `StringBuilder` moves a stream; moving a `JsonData`, and with it a document, moves a `std::deque`, which needs memory; and assigning to an `Expected` constructs, although only the assignment of the types was asked not to throw. [C122_regular_partial] C122: a type of the library that can be copied can be assigned, except `StringBuilder` and `File`. [C122_regular_fails] C122 fails: a `StringBuilder` and a `File` can be copied and moved, but not assigned. Moving a `File` copies it, which may throw."
  },
  {
   "property": "C123",
   "status": "partial",
   "theorems": [
    "Caitlyn.C123_bits_partial",
    "Caitlyn.C123_bits_fails",
    "Caitlyn.C123_errors"
   ],
   "note": "[C123_bits_partial] C123: the size in bytes is `sizeof`, the size in bits eight times as much, for all types of less than 2^61 bytes. [C123_bits_fails] C123, exactly: the size in bits is taken modulo 2^64. It is wrong for every type of 2^61 bytes or more, such as an array of that many characters, whose size in bits is 0."
  },
  {
   "property": "C124",
   "status": "partial",
   "theorems": [
    "Caitlyn.C124_console_partial",
    "Caitlyn.C124_console_error",
    "Caitlyn.C124_compiles",
    "Caitlyn.C124_numbers_fails",
    "Caitlyn.C124_plain",
    "Caitlyn.C124_escaped_fails",
    "Caitlyn.C124_file_partial",
    "Caitlyn.C124_file_fails",
    "Caitlyn.C124_terminator"
   ],
   "note": "[C124_console_partial] C124. Partial: a value that is printed alone is written like one that is put into a template. Missing: numbers, which cannot be printed alone (`C124_numbers_fails`). [C124_numbers_fails] C124 fails for numbers: every integer that `Write(\"{}\", value)` prints in decimal is rejected by `Write(value)`; for booleans and floating point numbers it is the same. [C124_escaped_fails] C124 fails for the documented example (docs/usage/formatting.md): `WriteLine(\"escaped: {{text}}\\n\")` is said to print `escaped: {text}`, which is what `Format` makes of it, but it prints the brackets twice. [C124_file_partial] C124, files. Partial: a value is written to a file like one that is put into a template. Missing: numbers, as for the console, and C strings that are not UTF-8 (`C124_file_fails`). [C124_file_fails] C124 fails for C strings that are not UTF-8: `Write(data)` of a file writes the bytes, `Write(\"{}\", data)` throws."
  },
  {
   "property": "C125",
   "status": "partial",
   "theorems": [
    "Caitlyn.C125_lines",
    "Caitlyn.C125_json_partial",
    "Caitlyn.C125_integers",
    "Caitlyn.C125_floats",
    "Caitlyn.C125_read_fails",
    "Caitlyn.C125_pretty_fails"
   ],
   "note": "[C125_json_partial] C125 for JSON documents that survive printing (`Printable`, see C52) and whose strings and keys have no line feed: saved in the compact form, one per line, and loaded with `ReadLine` and `Parse`, they are the same documents in the same order, without error. Missing: what is missing in C52, and line feeds in strings. [C125_read_fails] C125 is false for `Read`: with any lines in the file, a program that loads the whole file and not line by line has undefined behaviour. [C125_pretty_fails] C125 is false for the pretty form: of a document with members, `ReadLine` returns the opening bracket only, and parsing it reads behind the end of the text."
  },
  {
   "property": "C126",
   "status": "proved",
   "theorems": [
    "Caitlyn.C126_same",
    "Caitlyn.C126_linear",
    "Caitlyn.C126_least"
   ],
   "note": "[C126_same] C126. The instrumented copy of `kmp` computes what the model does, for all arguments. [C126_linear] C126. A search compares at most twice as many characters as pattern and text have together, less two, whether it finds the pattern or not. [C126_least] C126. A search that does not find the pattern has compared every character of the text at least once, and every character of the pattern but the first before."
  },
  {
   "property": "C127",
   "status": "proved",
   "theorems": [
    "Caitlyn.C127_pow",
    "Caitlyn.C127_sqrt",
    "Caitlyn.C127_digit"
   ],
   "note": "[C127_pow] C127. `Pow` ends within `k` rounds of its loop exactly for the exponents below `2 ^ k`: the number of rounds is the number of binary digits of the exponent. [C127_sqrt] C127. `Sqrt` of a number below `2 ^ k` ends within `k` rounds of its loop, with the integer square root. [C127_digit] C127. `Divide` finds each digit of the quotient, of a remainder `c` below ten times the divisor, in at most four rounds."
  },
  {
   "property": "C128",
   "status": "partial",
   "theorems": [
    "Caitlyn.C128_enough",
    "Caitlyn.C128_fails"
   ],
   "note": "[C128_fails] C128 is false for every fixed stack: documents that are well-formed, and that the program may have printed itself, need as many activations as they have levels. With room for `d` activations the document `{\"a\":[[...[0]...]]}` with `k` levels of arrays, of `2 * k + 7` characters, is parsed if `k + 2 ≤ d`, and exhausts the stack otherwise."
  },
  {
   "property": "C129",
   "status": "partial",
   "theorems": [
    "Caitlyn.C129_enough",
    "Caitlyn.C129_bound",
    "Caitlyn.C129_partial",
    "Caitlyn.C129_fails",
    "Caitlyn.C129_assign_enough",
    "Caitlyn.C129_assign_exact",
    "Caitlyn.C129_assign_fails"
   ],
   "note": "[C129_partial] C129 for values without items and members: a copy that fails leaves no node behind. Partial: C129_fails is about all others. [C129_fails] C129 is false for every value with an item or a member: if only the last step of the copy fails, every node of the copy but the outermost stays in memory, and nothing refers to them. `CopyUnion` keeps the new nodes in raw pointers, and an exception in a constructor does not run the destructor. By C129_bound no failure leaves more. [C129_assign_fails] C129 is false for assignments: whatever the variable held, after `a = b` failed for an array of one item the variable holds the empty array and the node made for the item is lost; if already making the array failed there is no array to destroy, although the type of the variable says so."
  },
  {
   "property": "C130",
   "status": "partial",
   "theorems": [
    "Caitlyn.C130_enough",
    "Caitlyn.C130_exact",
    "Caitlyn.C130_partial",
    "Caitlyn.C130_retries",
    "Caitlyn.C130_recovers",
    "Caitlyn.C130_fails",
    "Caitlyn.C130_leak"
   ],
   "note": "[C130_partial] C130 for the first call: no `char` array is lost. Partial: C130_leak is about later ones. [C130_fails] C130 is false: a call that runs out of memory has an effect. For every two arguments `a` and `b`: if copying the second fails, and the program calls `Initialize` with both again, `GetArgs()` has the first argument twice."
  },
  {
   "property": "C131",
   "status": "partial",
   "theorems": [
    "Caitlyn.C131_order",
    "Caitlyn.C131_distinct",
    "Caitlyn.C131_radix_partial",
    "Caitlyn.C131_fails",
    "Caitlyn.C131_sign"
   ],
   "note": "[C131_radix_partial] C131. `Radix`: the value of every enumerator is the largest digit of the base. [C131_fails] C131 is false for `Radix`: the value of no enumerator is its base."
  },
  {
   "property": "C132",
   "status": "partial",
   "theorems": [
    "Caitlyn.C132_no_failure",
    "Caitlyn.C132_make_fails",
    "Caitlyn.C132_reset_exact",
    "Caitlyn.C132_fails"
   ],
   "note": "[C132_make_fails] C132 is false for construction: after every history, if `SharedPtr x{new T}` runs out of memory, no variable and no counter changes, and the object just made stays in memory (`std::shared_ptr` deletes it). [C132_fails] C132 is false: a program without any wrong use of pointers deletes an object that is still owned. Three pointers share an object; `Reset` fails twice on the first, which then goes out of scope, as the second does; the third is left with a deleted object, and using it is undefined."
  },
  {
   "property": "C133",
   "status": "partial",
   "theorems": [
    "Caitlyn.C133_safe",
    "Caitlyn.C133_partial",
    "Caitlyn.C133_fails",
    "Caitlyn.C133_none"
   ],
   "note": "[C133_partial] C133: a type that owns nothing is trivially copyable. Partial: C133_fails is about `Ptr` and `Expected`. [C133_fails] C133 is false: a `Ptr`, which is nothing but a pointer, and an `Expected`, whatever it holds, are not trivially copyable: they write out the copies that the compiler would have generated. A `Ptr` is at least destroyed trivially; an `Expected` of two numbers is not."
  },
  {
   "property": "C134",
   "status": "partial",
   "theorems": [
    "Caitlyn.C134_objects",
    "Caitlyn.C134_reference_partial",
    "Caitlyn.C134_rvalue",
    "Caitlyn.C134_const",
    "Caitlyn.C134_reference_fails",
    "Caitlyn.C134_qualified_fails",
    "Caitlyn.C134_string",
    "Caitlyn.C134_qualified_exact"
   ],
   "note": "[C134_reference_partial] C134: a reference to a type has the members that the type has. Partial: C134_reference_fails is about `push_back` and `resize`, C134_qualified_fails about classes that are not usual. [C134_reference_fails] C134 is false: for every class, a reference to it has neither `push_back` nor `resize`, because `typename T::value_type` is ill-formed for references. [C134_qualified_fails] C134 is false for members with qualifiers: `begin() &` is found for `T&` but not for `T`, although every variable of type `T` has it; and a private `begin()` hides a public `begin() const`."
  },
  {
   "property": "C135",
   "status": "partial",
   "theorems": [
    "Caitlyn.C135_compiles_iff",
    "Caitlyn.C135_any_order_partial",
    "Caitlyn.C135_alone_fails",
    "Caitlyn.C135_broken",
    "Caitlyn.C135_cxx20_partial",
    "Caitlyn.C135_cxx20_fails",
    "Caitlyn.C135_macros_partial",
    "Caitlyn.C135_macro_fails"
   ],
   "note": "[C135_any_order_partial] C135. Partial: before C++20, a source file that includes any headers in any order is compiled, and so is every header by itself. Missing: TestFailMessage.h may not be included by its own name (`C135_alone_fails`), and standards from C++20 on (`C135_cxx20_fails`). [C135_alone_fails] C135 is false as stated: a source file that includes TestFailMessage.h first is rejected in every standard, because it uses `String` without including String.h. [C135_cxx20_partial] C135, from C++20 on: a source file that does not name TestFailMessage.h is compiled if and only if it includes neither Primary.h nor a header that includes it. [C135_cxx20_fails] C135 is false as stated: from C++20 on, a source file that includes `<Caitlyn/String>` or another of these headers is rejected. [C135_macros_partial] C135: the macros of a header that has been included can be expanded. Partial: not `JSON_STRING` (`C135_macro_fails`). [C135_macro_fails] C135 is false as stated: Json/Defs.h by itself declares `JSON_STRING`, but not `MakeDocument`, to which it expands."
  },
  {
   "property": "C136",
   "status": "partial",
   "theorems": [
    "Caitlyn.C136_pop_fails",
    "Caitlyn.C136_exact",
    "Caitlyn.C136_owners",
    "Caitlyn.C136_assign_partial",
    "Caitlyn.C136_pop_by_temporary"
   ],
   "note": "[C136_pop_fails] After `node = std::move(node->next)` the program is undefined, whatever it did before: the assignment deletes the node, and with it the pointer it is about to move from. `std::unique_ptr` allows it, and it is how the first element of a list is removed. [C136_assign_partial] Otherwise `p = std::move(q)` does what `std::unique_ptr` does: `p` points to what `q` pointed to, `q` is null, everything that `p` owned before is destroyed and nothing else changes. Missing from the property: the assignments of `C136_pop_fails`."
  },
  {
   "property": "C137",
   "status": "partial",
   "theorems": [
    "Caitlyn.C137_destroy",
    "Caitlyn.C137_reset",
    "Caitlyn.C137_exact",
    "Caitlyn.C137_fails",
    "Caitlyn.C137_partial"
   ],
   "note": "[C137_fails] `p = std::move(q)` with `p` a member of the object `q` points to, for instance `x->m = std::move(x)`, makes the object own itself: it is never destroyed, whatever the program does from then on. [C137_partial] If a program never does that, every living object is owned by a variable, and nothing is alive once no variable is left."
  },
  {
   "property": "C138",
   "status": "partial",
   "theorems": [
    "Caitlyn.C138_exact",
    "Caitlyn.C138_fails"
   ],
   "note": "[C138_fails] There is no bound: the end of the scope of a list of `n + 1` nodes runs `n + 1` destructors inside one another."
  },
  {
   "property": "C139",
   "status": "partial",
   "theorems": [
    "Caitlyn.C139_exact",
    "Caitlyn.C139_once_exact",
    "Caitlyn.C139_own_exact",
    "Caitlyn.C139_earlier_fails",
    "Caitlyn.C139_listed_fails",
    "Caitlyn.C139_own_fails",
    "Caitlyn.C139_agrees",
    "Caitlyn.C139_endless_fails"
   ],
   "note": "[C139_earlier_fails] C139 fails: `RunAll` returns 0 and reports 2 tests, but the test that was registered for an earlier suite during the run has not been executed. [C139_listed_fails] C139 fails: the summary counts one failed test, and lists two: with the failed one, the test that was registered for an earlier suite and never executed. [C139_own_fails] C139 fails: a test that registers a test for its own suite makes `RunAll` use invalid iterators. [C139_endless_fails] C139 fails: if every test registers one for a new suite after its own, `RunAll` never returns: no number of rounds is enough."
  },
  {
   "property": "C140",
   "status": "partial",
   "theorems": [
    "Caitlyn.C140_same",
    "Caitlyn.C140_square_partial",
    "Caitlyn.C140_least",
    "Caitlyn.C140_texts_fails",
    "Caitlyn.C140_nodes_fails",
    "Caitlyn.C140_keys_fails",
    "Caitlyn.C140_short_keys_fails"
   ],
   "note": "[C140_square_partial] C140, as far as it holds: for every text, well-formed or not, no count exceeds the square of the length by more than three times the length. The text itself is copied as often as it has characters, at most twice that. Missing for the property: a bound proportional to the length. There is none (`C140_texts_fails` and so on). [C140_texts_fails] C140 is false: the text `{\"a\":[true,true,...]}` with `k + 1` truths, of `5 * k + 12` characters, is copied as a whole `k + 1` times. The characters copied grow with the square of the length. [C140_nodes_fails] C140 is false: the items of arrays in arrays are copied level by level. The document `{\"a\":[[...[0]...]]}` with `k` levels, of `2 * k + 7` characters, which the program may have printed itself, takes `k * (k + 1)` copies of nodes at least. [C140_keys_fails] C140 is false: an object with different keys takes a comparison for every pair of them. [C140_short_keys_fails] C140 is false: the keys of an object need not be long for it. A text of `2 ^ w * (w + 5) + 1` characters takes `2 ^ w * (2 ^ w - 1) / 2` comparisons."
  },
  {
   "property": "C141",
   "status": "proved",
   "theorems": [
    "Caitlyn.C141_machine",
    "Caitlyn.C141_closed",
    "Caitlyn.C141_objects"
   ],
   "note": "[C141_machine] C141: whatever is called on a `File`, in whatever order and with whatever exceptions caught in between, every call gives what the machine gives, and the file holds what the machine says. [C141_closed] C141: an object of a file that cannot be opened, or without a name, does what the machine does, too. [C141_objects] C141: programs with several objects of one file, made and destroyed at any time. What a call on an object gives depends on the content and on the earlier calls on that object only, and the content is what the machine says."
  },
  {
   "property": "C142",
   "status": "partial",
   "theorems": [
    "Caitlyn.C142_exact",
    "Caitlyn.C142_some",
    "Caitlyn.C142_arguments",
    "Caitlyn.C142_once_fails",
    "Caitlyn.C142_race_fails",
    "Caitlyn.C142_static_partial",
    "Caitlyn.C142_null_fails",
    "Caitlyn.C142_early_fails"
   ],
   "note": "[C142_once_fails] C142 fails: \"can only be called once\" does not hold for threads. For any number of calls there is an interleaving in which all of them return, and then `GetArgs()` can be every list that has the arguments of each call in their order, mixed in any way. [C142_race_fails] C142 fails: as soon as the calls of two threads are over, one has written `initialized_` and another has read it, without any synchronisation between the two: every such program has a data race. [C142_static_partial] C142, before `main`: if the object exists when the first call is made, the pointer returned is not null, and every later call throws. Partial: missing are calls made from the initialisation of other variables (`C142_null_fails`, `C142_early_fails`). [C142_null_fails] C142 fails: a program that calls `Initialise()` before the object has been made gets a null pointer, and never gets another: whatever it does then, also after the object has been made, every call throws. [C142_early_fails] C142 fails: `Initialize`, also without arguments, calls a member function on a null pointer there."
  },
  {
   "property": "C143",
   "status": "partial",
   "theorems": [
    "Caitlyn.C143_synchronised",
    "Caitlyn.C143_order_partial",
    "Caitlyn.C143_possible",
    "Caitlyn.C143_order_fails",
    "Caitlyn.C143_read_synchronised",
    "Caitlyn.C143_read_partial",
    "Caitlyn.C143_read_fails"
   ],
   "note": "[C143_order_partial] C143. In a program that includes it, the order is still that of the actions if only `std::cout` and the library are used, or if everything written is flushed at once. Partial: `C143_order_fails`. [C143_order_fails] C143 fails: for every text `p` printed with a function of C and every text `q` written with the library thereafter, the output can be `q` before `p`; and if the buffer is not full before the end of the program, every text of the library comes before every text of C. [C143_read_partial] C143. Without, it is so if all lines are read in the same way, by the library or by functions of C. Partial: `C143_read_fails`. [C143_read_fails] C143 fails: if the system gives the input in one piece, then after the first line read by the library the functions of C find the end of the input, whatever it still has."
  },
  {
   "property": "C144",
   "status": "partial",
   "theorems": [
    "Caitlyn.C144_grammar",
    "Caitlyn.C144_message_partial",
    "Caitlyn.C144_compiles_fails",
    "Caitlyn.C144_operators_fails",
    "Caitlyn.C144_precedence",
    "Caitlyn.C144_shift_fails",
    "Caitlyn.C144_example_fails",
    "Caitlyn.C144_evaluation",
    "Caitlyn.C144_independent_partial",
    "Caitlyn.C144_capture_fails",
    "Caitlyn.C144_order_fails"
   ],
   "note": "[C144_message_partial] C144. If the operators in the operands bind more tightly than `<<`, that is `*`, `/`, `%`, `+` and `-`, the statement is well-formed and writes the values of both operands. Partial: for other operators see `C144_compiles_fails` and `C144_shift_fails`. [C144_compiles_fails] C144, exactly: the macro compiles if and only if every operator in the operands binds more tightly than `<<` or is `<<` itself. So `ASSERT_EQ(x & 1, 0)`, `ASSERT_EQ(a < b, true)`, `ASSERT_EQ(x >> 1, 2)` and the like are rejected, although the operands can be compared and printed. [C144_operators_fails] The same with the operators named: nothing but `*`, `/`, `%`, `+`, `-` and `<<` is allowed outside parentheses. [C144_shift_fails] C144: whenever the macro compiles, the message shows each operand cut at its `<<`, so the operand `a << b` of two numbers appears as `a` followed by `b` instead of its value. [C144_example_fails] `ASSERT_EQ(1 << 3, 9)`: the message says `13 != 9`, the operand is 8. [C144_independent_partial] Operands that mention no `oss` and do not change what the other one shows have exactly one message, the expected one. [C144_capture_fails] C144 fails for operands that mention a variable `oss` of the caller: `ASSERT_EQ(oss.str(), x)`, the usual way to test a `<<`, compares the caller's stream, but the message shows what the macro itself has written so far: nothing, the text, or the text and a parenthesis. [C144_order_fails] C144 fails for operands that share a side effect: `ASSERT_EQ(next(), next())` can show the two numbers in either order."
  },
  {
   "property": "C145",
   "status": "partial",
   "theorems": [
    "Caitlyn.C145_exact_fails",
    "Caitlyn.C145_right_partial",
    "Caitlyn.C145_natural_partial",
    "Caitlyn.C145_sharp_fails",
    "Caitlyn.C145_fails",
    "Caitlyn.C145_order_partial",
    "Caitlyn.C145_colons_fails",
    "Caitlyn.C145_overflow_fails"
   ],
   "note": "[C145_exact_fails] C145, what every program gives that does not divide a number other than zero by a zero with the sign flag: what the operations on magnitude and flag give, with no other exception than those of the specification, no undefined behaviour and an end of all loops. The intended meaning differs (`C145_fails`). [C145_right_partial] C145. Partial: a program in which no statement of `Wrong` is executed gives what the same program with integers gives, and ends with the canonical numbers of the same integers. Missing: the programs in which there is one (`C145_sharp_fails`, `C145_exact_fails`). [C145_natural_partial] C145. Partial: a program in which no variable gets below zero gives what it gives with integers. Missing: negative numbers. [C145_sharp_fails] C145, the statements of `Wrong` do go wrong: executed with the canonical numbers of the integers, each of them gives another output than intended or leaves a variable that is not the canonical number of the intended integer, and so compares unequal to it. [C145_fails] C145 is false as stated: `x = 5; y = -5; x = x + y; z = 0;` and then `x == z` is false, `x < z` is true, both print as 0, and `Sqrt` of `x` throws. [C145_order_partial] C145. Partial: although the operators do not compare the values of negative numbers, `<` is a strict total order on all computed numbers, equality of which is `==`; so numbers can be sorted and used as keys. Missing: that it is the order of the values (`C45_fails`). [C145_colons_fails] C145, the programs that `C145_exact_fails` leaves out: a number other than zero divided by a zero with the flag is a number of as many digits as the dividend, each of them ten, and prints as so many colons. [C145_overflow_fails] C145: the square of such a quotient is undefined behaviour for every dividend: `Multiply` writes behind the end of the digits of the result. Every step before it is a call of the public interface that returns."
  },
  {
   "property": "C146",
   "status": "partial",
   "theorems": [
    "Caitlyn.C146_exact_fails",
    "Caitlyn.C146_round_trip",
    "Caitlyn.C146_natural_partial",
    "Caitlyn.C146_fails",
    "Caitlyn.C146_hangs_fails",
    "Caitlyn.C146_throws_fails"
   ],
   "note": "[C146_exact_fails] C146, what every program gives: what the operations on the two integers give, if the numbers it computes with have less than 2^56 digits. It ends exactly if none of them hangs; there is no undefined behaviour. The intended meaning differs (`C146_fails`). [C146_natural_partial] C146. Partial: a program on natural numbers with sums, differences that do not fall below zero, quotients, copies, moves, comparisons and output gives what it gives with natural numbers, quotients being rounded down. Missing: products, powers, roots, fractions and negative numbers, which go wrong (`C146_exact_fails`). [C146_fails] C146 is false as stated: programs that end, what they print and what they should have computed. In turn: reading 0.05 and -0.5, 0.99 + 0.99, 1.10 - 0.95, (1.5 - 2.7), 12 * 3, 15.5 / 5, the third power of 2, the absolute value of -3. [C146_hangs_fails] C146 is false as stated: programs of the public interface that should end and never do. In turn: 1.5 + 1, 2.5 - 2, the root of 2.25, and 0.5 + (0.5 + 0.5). [C146_throws_fails] C146 is false as stated: a difference of two numbers cannot be multiplied, and one cannot be divided by a half."
  },
  {
   "property": "C147",
   "status": "partial",
   "theorems": [
    "Caitlyn.C147_exact_fails",
    "Caitlyn.C147_partial",
    "Caitlyn.C147_fails",
    "Caitlyn.C147_well_formed_partial",
    "Caitlyn.C147_surrogate_fails"
   ],
   "note": "[C147_exact_fails] C147, exactly what a program gives: what the exact meaning says about texts; undefined behaviour exactly if it says so. Nothing else happens: no exception but the ones that are caught, no endless loop, nothing in between two characters. The exact meaning is not the intended one (`C147_fails`). [C147_partial] C147. Partial: a program gives what it means if no string is appended to or inserted into itself, the empty string is not looked for at the end, and `ReverseFind` looks for single characters. Missing: the other programs (`C147_exact_fails`, `C147_fails`). [C147_fails] C147 is false as stated: programs, what they give and what they should have given. In turn: `x += x`, `x.Insert(1, x)`, `ReverseFind` for \"na\" in \"banana\", for the empty text in \"ab\", `Find` for the empty text at the end of \"ab\", and `Contains` for the empty text in the empty text. [C147_well_formed_partial] C147. Partial: everything that a program without `ToLowercase` shows is UTF-8. Missing: `ToLowercase` (`C147_surrogate_fails`). [C147_surrogate_fails] C147 is false as stated: the program `x = String{\"\\uE000\"}; x = x.ToLowercase(); x.str()` shows a surrogate, which is not UTF-8."
  },
  {
   "property": "C148",
   "status": "partial",
   "theorems": [
    "Caitlyn.C148_number_exact",
    "Caitlyn.C148_integer_exact",
    "Caitlyn.C148_text_fails",
    "Caitlyn.C148_classic",
    "Caitlyn.C148_partial",
    "Caitlyn.C148_dot_fails",
    "Caitlyn.C148_comma_fails",
    "Caitlyn.C148_double_fails",
    "Caitlyn.C148_format_fails"
   ],
   "note": "[C148_text_fails] C148 fails, and exactly when: the bytes that `ToString` writes for a JSON value, whatever its options, are those of the classic locale iff each number in the value is written as in the classic locale. [C148_partial] C148. Partial: in a locale that writes no groups and has the decimal point of C, every JSON value and every `double` is written as in the classic locale. Missing: the other locales (`C148_text_fails` and the theorems after it). [C148_dot_fails] C148 fails in a locale that separates groups by dots, for every integer: what `ToString` writes is read without an error as the integer cut after the first group; digits are lost iff it has more than one group. With groups of `g` digits, `g * ((digits - 1) / g)` digits are lost. [C148_comma_fails] C148 fails in a locale that separates groups by commas, for every integer in an array: what `ToString` writes is read without an error as one integer for each group: the number cut at its first group, and the other groups as non-negative integers, of which there are none iff the number has one group. With groups of `g` digits they are the digits of the number in base `10^g`. [C148_double_fails] C148 fails for `BigFloat(double)`: in a locale whose decimal point is another character of ASCII that is not a digit, it throws `invalid_argument` for every finite `double`. [C148_format_fails] C148 fails for `String::Format`: in a locale whose decimal point is another character of ASCII, a precision does not shorten a `double` but adds a dot and as many zeros, for every finite `double` and every precision."
  },
  {
   "property": "C149",
   "status": "partial",
   "theorems": [
    "Caitlyn.C149_enough",
    "Caitlyn.C149_bound",
    "Caitlyn.C149_partial",
    "Caitlyn.C149_kept_partial",
    "Caitlyn.C149_lost_fails",
    "Caitlyn.C149_leak_fails",
    "Caitlyn.C149_doomed_fails",
    "Caitlyn.C149_terminate_fails"
   ],
   "note": "[C149_partial] C149 for programs in which no statement throws, whatever fails: the variables hold what the statements say, the nodes are those of the variables, and at the end none is left. Partial: C149_lost_fails, C149_leak_fails, C149_doomed_fails and C149_terminate_fails are about programs in which a statement fails. [C149_kept_partial] C149 for statements that keep the type of the value (a text assigned to a text, a member of an object, an item appended to an array), for moves and for scalars: if they throw, every variable is what it was, whatever the state. Partial: for other statements see C149_lost_fails. [C149_lost_fails] C149 fails for statements that change the type: if the first step fails that may allocate, then for every value of another type the old value is gone, and the variable holds what nobody put there: an empty text, an empty object, for an assigned text a null-like object without a text, for an assigned array an object of type `Array` without an array. [C149_leak_fails] C149 fails: `x[key]` for a new key, with every object and every key: if the node can be allocated and the place for it cannot, the statement throws, `x` is as before, and the node stays: it belongs to no variable, and at the end of every continuation without further failures there is one node too many. [C149_doomed_fails] C149 fails for every value that is not an array and every value appended to it: if the constructor of the deque fails, `Append` throws and leaves a variable of type `Array` without an array, and then no program ends normally, whatever its statements and whatever fails: what remains is undefined behaviour or `std::terminate`, at the latest in the destructor. [C149_terminate_fails] C149 fails for moves: if the step of the move constructor of `std::deque` fails, a program that moves an array ends in `std::terminate`, whatever it moves it to and whatever follows: the functions are `noexcept`."
  },
  {
   "property": "C150",
   "status": "partial",
   "theorems": [
    "Caitlyn.C150_enough",
    "Caitlyn.C150_print_partial",
    "Caitlyn.C150_compact_partial",
    "Caitlyn.C150_print_fails",
    "Caitlyn.C150_parse_partial",
    "Caitlyn.C150_texts_fails",
    "Caitlyn.C150_cut_fails",
    "Caitlyn.C150_numbers_fails",
    "Caitlyn.C150_equal_fails",
    "Caitlyn.C150_less_fails",
    "Caitlyn.C150_files_fails",
    "Caitlyn.C150_builder_partial",
    "Caitlyn.C150_builder_fails"
   ],
   "note": "[C150_print_partial] C150, printing. Partial: the text is the right one if every stream made on the way can take as many bytes as the text has. Missing: smaller streams (`C150_print_fails`). [C150_compact_partial] C150, printing without line breaks. Partial: exactly what may come out: the beginning of the text of a value that has the same structure and numbers, and the beginnings of the keys and texts. Missing: that it is the whole text (`C150_print_fails`). [C150_print_fails] C150, printing, fails: for every value and every value with shorter keys and texts, printing the first may give the text of the second, without an exception. [C150_parse_partial] C150, parsing. Partial: if a text is parsed without an error with enough memory, then a run with little memory that reports no error gives a value of the same structure with the same keys, words and lengths of arrays; texts may have lost their end and numbers their last digits. Missing: that texts and numbers are complete (`C150_texts_fails`, `C150_numbers_fails`). [C150_texts_fails] C150, parsing, fails: every text of every document may be lost, without an error. [C150_cut_fails] C150, parsing, fails: the texts of a document of ASCII characters without escapes may be cut after any number of characters, without an error. [C150_numbers_fails] C150, parsing, fails: a number loses its last digits without an error; or a document is reported as wrong; or `Parse` throws `std::out_of_range`. [C150_equal_fails] C150, comparisons, fails: a `String` may compare equal to every beginning of its text, even the empty one. [C150_less_fails] C150, comparisons: and it may compare less than its own text. [C150_files_fails] C150, files, fails: `Write` may write any beginning of the text, and otherwise does what a call that writes only this does; and `Open` may open the file whose name is any beginning of the name. [C150_builder_partial] C150, `StringBuilder`. Partial: exactly what it holds: what is left of all that is left of the arguments. Missing: that nothing is lost (`C150_builder_fails`). [C150_builder_fails] C150, `StringBuilder`, fails: after one growth that fails every later `Append` does nothing, whatever it is given and however much memory there is by then."
  },
  {
   "property": "C151",
   "status": "partial",
   "theorems": [
    "Caitlyn.C151_exact",
    "Caitlyn.C151_growing",
    "Caitlyn.C151_lookup_fails"
   ],
   "note": "[C151_lookup_fails] C151 fails: looking up a key is enough to invalidate references. After every program and for every reference to a part of a value that is not an object, `value[key]`, without an assignment, destroys what the reference refers to: every use of it afterwards is undefined."
  },
  {
   "property": "C152",
   "status": "partial",
   "theorems": [
    "Caitlyn.C152_race_fails",
    "Caitlyn.C152_unlocked",
    "Caitlyn.C152_locked",
    "Caitlyn.C152_interleavings",
    "Caitlyn.C152_torn_fails"
   ],
   "note": "[C152_race_fails] C152 (fails): when two threads make calls that use a common stream, and one of them uses no mutex, every execution of the program has a data race on that stream, whatever the other threads do. As `cerr` and `cin` are tied to `cout`, this concerns `ErrorStream` or `InputStream` in one thread and `OutputStream` in the other, too. [C152_torn_fails] C152 (fails): also where the streams are synchronized, so that there is no data race, `WriteLine` is not one step: of two threads that write a line each, the two texts can come in one line, with an empty line after it."
  },
  {
   "property": "C153",
   "status": "partial",
   "theorems": [
    "Caitlyn.C153_programs",
    "Caitlyn.C153_enough",
    "Caitlyn.C153_reported",
    "Caitlyn.C153_append_fails"
   ],
   "note": "[C153_append_fails] C153 (fails): in every state that a program reaches, when a string has room for fewer characters than `Append` is to add, and the allocation fails, `Append` throws `std::bad_alloc`, but the characters for which there was room have been appended."
  },
  {
   "property": "C154",
   "status": "partial",
   "theorems": [
    "Caitlyn.C154_undefined",
    "Caitlyn.C154_ends",
    "Caitlyn.C154_kept",
    "Caitlyn.C154_grown_fails",
    "Caitlyn.C154_pattern_fails"
   ],
   "note": "[C154_grown_fails] C154 (fails): in every state that a program reaches, after `Append` of more characters than the string has room for, reading a reference to any of its characters is undefined, however strings grow. [C154_pattern_fails] C154 (fails): in every state that a program reaches, `x.Append(n, r)` with `r` a character of `x` is undefined when `n` is at least two more than the room of `x`, unless the allocation fails."
  },
  {
   "property": "C155",
   "status": "partial",
   "theorems": [
    "Caitlyn.C155_reads_partial",
    "Caitlyn.C155_lookup_fails",
    "Caitlyn.C155_alone"
   ],
   "note": "[C155_reads_partial] C155 (in part): when every query of every thread finds what it looks for, or looks with the `const` `At`, then in every execution nothing is written and there is no data race, the value stays as it is, no step is undefined, and a thread at its end has the answers that it would have alone. Missing: queries whose `operator[]` does not find its key (`C155_lookup_fails`). [C155_lookup_fails] C155 (fails): a thread that only looks for a key that is not there, with `operator[]` or with `At` of a value that is not `const`, writes. When another thread looks for anything in the same value, every execution in which both come to their ends has a data race."
  },
  {
   "property": "C156",
   "status": "partial",
   "theorems": [
    "Caitlyn.C156_exact_fails",
    "Caitlyn.C156_detour"
   ],
   "note": "[C156_exact_fails] C156, exactly, for all programs with variables of type `Expected` whose values contain further ones: if no statement assigns to a variable a proper part of what it holds, the variables hold what variables of a recursive sum type hold, and exceptions of `Get` and `at` leave them unchanged. If some statement does, the behaviour of the program is undefined, because the old value, and with it the part, is destroyed before the part is read."
  },
  {
   "property": "C157",
   "status": "partial",
   "theorems": [
    "Caitlyn.C157_exact_fails",
    "Caitlyn.C157_partial",
    "Caitlyn.C157_same_tick_fails",
    "Caitlyn.C157_dice_fails",
    "Caitlyn.C157_count_fails",
    "Caitlyn.C157_flips_fails"
   ],
   "note": "[C157_exact_fails] C157, exactly: a sequence of results within the range can occur, for some engine, if and only if calls at the same reading of the clock have the same result. [C157_partial] C157 holds if the clock advances between all calls: then every sequence of results within the range can occur. [C157_same_tick_fails] C157 fails if the clock does not advance between the calls: all of them give the same number, whatever the engine. [C157_dice_fails] So two dice thrown in the same tick show the same face for every engine, and no two faces can be told apart. [C157_count_fails] C157: a program gets no more different numbers than the clock had different readings. [C157_flips_fails] C157 for `RandomBoolean`, exactly: if both outcomes are possible for the percentage, then a sequence of flips can occur if and only if flips at the same reading of the clock are the same."
  },
  {
   "property": "C158",
   "status": "proved",
   "theorems": [
    "Caitlyn.C158_traits",
    "Caitlyn.C158_relations",
    "Caitlyn.C158_layout",
    "Caitlyn.C158_base",
    "Caitlyn.C158_convertible",
    "Caitlyn.C158_owner",
    "Caitlyn.C158_fixture",
    "Caitlyn.C158_new",
    "Caitlyn.C158_fixture_class"
   ],
   "note": "[C158_traits] C158: what the traits say, in terms of the subobjects of an object of the class. `HasVirtualDestructor`: some class among them declares its destructor virtual. `IsPolymorphic`: some class among them declares something virtual. `IsEmpty`: none has data members or declares anything virtual. `IsAbstract`: some class among them declares a pure function that no class on the way to it declares. [C158_relations] C158: how the traits depend on each other, and on those of the bases: what has a virtual destructor or is abstract is polymorphic; what is polymorphic is neither empty nor of standard layout; virtual destructors and virtual functions are inherited; the bases of an empty class are empty. [C158_layout] C158: `IsStandardLayout` holds exactly if nothing is virtual, no class among the subobjects has both public and other data members, at most one of the subobjects has data members, and no class occurs twice. [C158_base] C158: `BaseOf` says whether there is a subobject of the class; it is a partial order on the classes. [C158_convertible] C158: `Convertible<D*, B*>` holds exactly if there is one subobject of class `B` and all steps on the way to it are public; the conversion gives its place. [C158_owner] C158, exactly: programs with variables of type `UniquePtr<B>` that own objects of classes derived from `B`. If every object that is let go of is of class `B`, or `HasVirtualDestructor<B>()`, then each of these is destroyed when its owner lets go of it, wholly: the destructor of each subobject runs once, that of a class before those of its bases, those of later bases before those of earlier ones. Otherwise the behaviour is undefined. [C158_fixture] C158: `TEST_F` compiles exactly if `Run` is the only pure function of the fixture, and the test's object ends wholly. [C158_new] C158: `new D` can be given for a `B*` exactly if no pure function of `D` is left and there is one subobject of class `B`, reached by public steps; the pointer is to it. [C158_fixture_class] C158: the class of a test with a fixture has the fixture as its only base, publicly, and nothing else that is virtual or takes room: a pointer to it is one to the fixture, and the traits are those of the fixture."
  },
  {
   "property": "C159",
   "status": "partial",
   "theorems": [
    "Caitlyn.C159_partial",
    "Caitlyn.C159_map_error_fails",
    "Caitlyn.C159_and_then_fails",
    "Caitlyn.C159_chain_fails",
    "Caitlyn.C159_names_fails",
    "Caitlyn.C159_instances",
    "Caitlyn.C159_converted",
    "Caitlyn.C159_exact_fails"
   ],
   "note": "[C159_partial] C159 (in part): the operations that keep the types of value and error compile where the types fit, and have the wanted type. Missing: `MapError` and `OrElse` that change the type of the error, `AndThen` that changes the type of the value, `UnwrapOrDefault`, `Filter`. [C159_map_error_fails] C159 fails for `MapError`, exactly: it compiles if and only if the function does not change the type of the error, whatever conversions there are. [C159_and_then_fails] C159 fails for `AndThen`, `Then`, `OrElse` and `CatchError`, exactly: they compile if and only if the function returns an `Expected` of the same types, a value of the same type or of one with a standard conversion to it, or an `Unexpected` of the same type. [C159_chain_fails] So a computation that may fail cannot be followed by one with another type of value: `AndThen` with a function that returns an `Expected<u, e>` compiles only if `u` is `t`, or `t` is itself that type. [C159_names_fails] C159 fails for `UnwrapOrDefault` and `Filter`: they never compile, for any types. [C159_exact_fails] C159, exactly, for all operations that have a wanted type: they compile, with this type, if and only if they keep the types, or, in the case of `AndThen` and `OrElse`, the wanted type is the type of the value itself."
  },
  {
   "property": "C160",
   "status": "partial",
   "theorems": [
    "Caitlyn.C160_range",
    "Caitlyn.C160_other",
    "Caitlyn.C160_compiles_partial",
    "Caitlyn.C160_big_integer",
    "Caitlyn.C160_big_float_partial",
    "Caitlyn.C160_big_float_fails",
    "Caitlyn.C160_char_partial",
    "Caitlyn.C160_json_partial",
    "Caitlyn.C160_builder_partial",
    "Caitlyn.C160_builder_fails",
    "Caitlyn.C160_null_fails",
    "Caitlyn.C160_call_fails",
    "Caitlyn.C160_std_string_fails"
   ],
   "note": "[C160_compiles_partial] C160. Which integer types can be given for which class: for `Char` only `char`, `unsigned int` and `char32_t`, for `BigInteger` only `long` and `unsigned long` (so `BigInteger x(5)` does not compile), for `BigFloat`, `StringBuilder` and `JsonData` every one, for `String` none. The operators of `BigInteger` and `BigFloat` take the same types, also floating point ones for `BigFloat`. [C160_big_float_partial] C160. A `BigFloat` made from an integer of any type is the nearest `double`: it is this number exactly if the number is a `double`, that is a number below 2^53 times a power of two. [C160_big_float_fails] C160 fails for `BigFloat`: no odd number beyond 2^53 is kept. [C160_char_partial] C160. A `Char` made from a built-in value stands for this code point exactly if the value is not negative (a negative `char` is a byte of a longer sequence) and has at most 21 bits. [C160_json_partial] C160. A JSON value made from a truth value is this truth value, one made from another integer type is a number, and it is the number given exactly if this is below 2^63; only `unsigned long` and `unsigned long long` have others. [C160_builder_partial] C160. A `StringBuilder` made from a built-in value of any integer type holds one byte, the value modulo 256: for a `char` this character. [C160_builder_fails] C160 fails for `StringBuilder`: of a number that is given for one never the digits are written. [C160_null_fails] C160 fails for null pointers: `String`, `Char`, `BigInteger` and `BigFloat` can be made from `nullptr`, which is undefined behaviour; a `StringBuilder` made from it is empty. The literal `0` is a null pointer for `String`, does not compile for the others, although other literals do for `BigFloat` and `StringBuilder`. [C160_call_fails] C160 fails for calls: every function that takes a `String` takes the literal `0` and reads through a null pointer (`s == 0`, `s + 0`, `s.Append(0)`), and so does `s.Append(n, 0)`; every function takes `nullptr` and does so. [C160_std_string_fails] C160 fails for `std::string`: a `BigInteger`, `BigFloat` or `StringBuilder` can be made from one by `T x(s)`, but not by `T x = s` and not in a call."
  },
  {
   "property": "C161",
   "status": "partial",
   "theorems": [
    "Caitlyn.C161_members",
    "Caitlyn.C161_source_partial",
    "Caitlyn.C161_namespace_fails",
    "Caitlyn.C161_std_fails",
    "Caitlyn.C161_detectors_partial",
    "Caitlyn.C161_umbrella_fails",
    "Caitlyn.C161_order_fails",
    "Caitlyn.C161_units_fails",
    "Caitlyn.C161_strings_fails"
   ],
   "note": "[C161_source_partial] C161, in the functions of a source file that has read the header of the class: an expression with two of its objects, or with an output stream and one, compiles exactly if the class offers the operator; and, besides, `%` compiles for strings if BigInteger.h has been read, and `-`, `*`, `/` compile for strings if BigInteger.h has been read and BigFloat.h has not. Reading from a stream needs a variable. [C161_namespace_fails] C161 fails in every namespace that declares an operator of the same name for something else: exactly the operators that are members are still found, and those of `Unexpected<E>` if `E` is a class of the global namespace. Nothing can be written to a stream or read from one. [C161_std_fails] C161 fails in the templates of the standard library: large numbers can neither be sorted, nor searched for, nor summed up, nor multiplied, nor written or read through iterators of streams; strings can be sorted, searched for and summed up but not written or read; characters and pointers can be searched for. [C161_detectors_partial] C161, the detectors: `HasXxxOperatorType` answers yes exactly if the operator is one that the class offers, is not the one that reads from a stream, and is a member or stands in a header that has been read before the detectors; and, besides, for `%` of strings if BigInteger.h has been read before, and for `-`, `*`, `/` of strings if BigInteger.h has been read before and BigFloat.h has not. [C161_umbrella_fails] C161 fails for the detectors in every source file that begins with the header for everything, `Caitlyn/Caitlyn`: they deny all operators of large numbers and the output of documents, all of which compile there. [C161_order_fails] C161 fails: the answers depend on the order of the headers. A source file that reads `Caitlyn/Numeric` before `Caitlyn/Traits` is told that large integers have `<` and `+`, that they can be written, and that strings can be written and have `%`; one that reads `Caitlyn/Traits` first is told the opposite, whatever it reads then. [C161_units_fails] C161 fails: two translation units of one program that links can disagree about a class template with the same name, here `HasLessOperatorType<BigInteger>` and `HasOStreamOperatorType<String>`. [C161_strings_fails] C161 fails: strings are subtracted, multiplied and divided as numbers where only BigInteger.h has been read; reading BigFloat.h as well makes the same expression ambiguous. The remainder of two strings compiles in both cases."
  },
  {
   "property": "C162",
   "status": "partial",
   "theorems": [
    "Caitlyn.C162_unique_partial",
    "Caitlyn.C162_as_owner",
    "Caitlyn.C162_self_fails",
    "Caitlyn.C162_borrowed_fails",
    "Caitlyn.C162_shared_partial",
    "Caitlyn.C162_shared_fails",
    "Caitlyn.C162_weak_partial",
    "Caitlyn.C162_weak_fails"
   ],
   "note": "[C162_unique_partial] C162, `UniquePtr`, exactly: `x == r`, `x != r` and `f(r)` for a plain pointer `r` compare as the pointers do and change nothing else if `r` is null; if `r` points to an object, the object is destroyed; if it is not there any more, the behaviour is undefined. [C162_self_fails] C162 fails: a program that compares a `UniquePtr` with the pointer to its own object, or gives this pointer to a function that takes an owner, cannot end well. Whatever it does before and afterwards, the behaviour is undefined at some point, or some `UniquePtr` still owns the destroyed object; so it is undefined at the latest when the scopes of all variables have ended. [C162_borrowed_fails] C162 fails: an object that nobody owns is gone after a comparison with the pointer to it. [C162_shared_partial] C162, `SharedPtr`: the comparison with a plain pointer says whether the pointers are equal and destroys no object. Partial: `C162_shared_fails`. [C162_shared_fails] C162 fails for `SharedPtr`: every comparison with a pointer to an object loses a counter for good: it is never deleted, whatever the program does afterwards. [C162_weak_partial] C162, `WeakPtr`: comparison with a `SharedPtr` that owns something says whether the pointers are equal and changes nothing. Partial: `C162_weak_fails`. [C162_weak_fails] C162 fails: the comparison of a `WeakPtr` with an empty `SharedPtr` has undefined behaviour, whatever the `WeakPtr` holds."
  },
  {
   "property": "C163",
   "status": "partial",
   "theorems": [
    "Caitlyn.C163_same_partial",
    "Caitlyn.C163_same_fails",
    "Caitlyn.C163_char",
    "Caitlyn.C163_text_partial",
    "Caitlyn.C163_text_fails",
    "Caitlyn.C163_json",
    "Caitlyn.C163_trait_partial",
    "Caitlyn.C163_trait_fails",
    "Caitlyn.C163_null_partial",
    "Caitlyn.C163_null_fails",
    "Caitlyn.C163_nothrow"
   ],
   "note": "[C163_same_partial] C163. What can be assigned to a variable could also have been given to its constructor. The converse holds but for `StringBuilder`, to which nothing can be assigned, and for a `std::string` given to one of the large numbers. [C163_same_fails] C163. `BigInteger x(s)` compiles for a `std::string`, `x = s` does not; nor does any assignment to a `StringBuilder`. [C163_text_partial] C163. A text can be assigned in each of its types to a `String` and to a `JsonDocument`. A `JsonData` takes a `const char*` and a `std::string` but no `String`, neither in an assignment nor in a declaration; a large number takes no `std::string`, a `Char` no `String` and a `StringBuilder` none of them. [C163_text_fails] C163. `json = String(\"x\")` and `JsonData json(String(\"x\"))` do not compile, though `JsonData` holds its texts as `String`, and `GetString` returns one. [C163_trait_partial] C163. `Assignable<T&, U>()` for the type of an expression says whether the assignment compiles, for all expressions but the literal `0`. Of this it says that a `String` or a `JsonDocument` does not take it, which compiles, and that a `BigFloat` does, which does not compile; for the others it is right. [C163_trait_fails] C163. The two errors about the literal `0`. [C163_null_partial] C163. Which assignments read through a null pointer: of `nullptr` to everything but a `StringBuilder`, to a `JsonData` only before C++23, and of the literal `0` to a `String` or a `JsonDocument`. [C163_null_fails] C163. `json = nullptr` does not make the value null but reads through the pointer; from C++23 on it does not compile."
  },
  {
   "property": "C164",
   "status": "partial",
   "theorems": [
    "Caitlyn.C164_compiles_partial",
    "Caitlyn.C164_construct_exact",
    "Caitlyn.C164_append_exact",
    "Caitlyn.C164_same_partial",
    "Caitlyn.C164_same_fails",
    "Caitlyn.C164_zero_fails",
    "Caitlyn.C164_texts",
    "Caitlyn.C164_index_partial",
    "Caitlyn.C164_index_fails"
   ],
   "note": "[C164_compiles_partial] C164. Which calls with integers compile. `String(n, c)` takes every two integer types that are different, and none twice: `String(3, 97)` chooses the template for iterators, which cannot be compiled. `Append(n, c)` and `Insert(p, n, c)` take every integer type for the count and the position, and a `char`, an `unsigned int` or a `char32_t` for the character. [C164_same_partial] C164. For ASCII characters other than NUL given as `char`, `unsigned int` or `char32_t`, the constructor makes the text that `Append` makes from an empty one, if it compiles. [C164_same_fails] C164. For other characters it does not: `String(2, U'\\u0101')` is two control characters, `String(2, U'\\u20AC')` throws, `String(2, U'\\0')` is two NUL, and `String(2, '\\xE4')` throws, where `Append` makes two times the character, nothing for NUL, or the byte. [C164_zero_fails] C164. A literal `0` given for a character beside a count of integer type. `String(n, 0)` is zero bytes unless `n` is an `int`, when it does not compile; `Append(n, 0)` and `Insert(p, 0)` take it for a null pointer and read through it; `Insert(p, n, 0)` does not compile. With `nullptr` they all compile and read through it. [C164_index_partial] C164. `json[x]` takes every number for an index, also the literal `0`, characters and fractions, and every text for a key; `document[x]` takes a text for a key. Nothing else compiles but `nullptr`, and the literal `0` for a document. [C164_index_fails] C164. `document[0]` compiles and reads through a null pointer, as do `document[nullptr]` and `json[nullptr]`; `json[0]` is the first element. A character is an index: `json['a']` is the element 97, and a negative index an element far beyond every end."
  },
  {
   "property": "C165",
   "status": "partial",
   "theorems": [
    "Caitlyn.C165_integer_partial",
    "Caitlyn.C165_float_partial",
    "Caitlyn.C165_assign_exact",
    "Caitlyn.C165_float_fails",
    "Caitlyn.C165_released_fails",
    "Caitlyn.C165_enough",
    "Caitlyn.C165_can_throw",
    "Caitlyn.C165_storage"
   ],
   "note": "[C165_integer_partial] C165. A program with `BigInteger` variables in which allocations fail gives what the program without the statements that threw `std::bad_alloc` gives, and its variables have the numbers they have there; if its behaviour is undefined, so is that of a part of the program in which memory does not end. For a vector that gives up its storage first this holds for programs that do not assign one variable to another. [C165_float_partial] C165. The same for `BigFloat`, of programs that do not assign one variable to another, with either vector. [C165_float_fails] C165 fails: when there is no memory for the fraction, a variable whose number differs from that of the other in both parts has a number afterwards that it had not before, and that is not the other's. [C165_released_fails] C165 fails for a vector that gives up its storage first: a `BigInteger` that is assigned a number too long for its storage has no digits afterwards, whatever it was, and a negative one keeps its sign."
  },
  {
   "property": "C166",
   "status": "partial",
   "theorems": [
    "Caitlyn.C166_exact_fails",
    "Caitlyn.C166_partial",
    "Caitlyn.C166_before_main",
    "Caitlyn.C166_fails",
    "Caitlyn.C166_two_fails",
    "Caitlyn.C166_uses"
   ],
   "note": "[C166_exact_fails] C166, exactly. A program whose static objects use the library has the expected results if, and only if, each of the tables (and the registry) that the destructor of an object uses was used before the object was made, or is used by nothing else from then until that destructor. In every other program a destructor reads a table that is destroyed already. [C166_partial] C166. When each destructor uses only what was used before its object was made — by the constructor of the object, for example — or uses no table at all, the calls in destructors return what the same calls return in `main`. Missing: the other programs (`C166_fails`, `C166_two_fails`). [C166_fails] C166 fails: a program that makes a static object and then makes a call, which the destructor of the object makes too. The table is made after the object and destroyed before it. With a call before the object is made, everything is as it should be. [C166_two_fails] C166 fails: two static objects whose destructors use a table that nothing else uses. The destructor that runs first has the table made, which is destroyed before the second destructor runs. One such object is all right, whatever number of calls its destructor makes."
  },
  {
   "property": "C167",
   "status": "partial",
   "theorems": [
    "Caitlyn.C167_exact_fails",
    "Caitlyn.C167_compact",
    "Caitlyn.C167_room_fails",
    "Caitlyn.C167_work_partial",
    "Caitlyn.C167_work_pretty",
    "Caitlyn.C167_work_fails",
    "Caitlyn.C167_stack_fails",
    "Caitlyn.C167_parsed"
   ],
   "note": "[C167_exact_fails] C167, exactly. With room for `d` calls inside each other and `m` characters of spaces at a time, `ToString` gives the text that it gives without limits if, and only if, the values lie no deeper in each other than `d` and the strings of spaces that it keeps while it prints (one for each value that the current one lies in) fit; otherwise an allocation fails. The sums do not wrap around before that. [C167_room_fails] C167 fails: a compact text, which has no spaces, cannot be printed if the number of spaces given is greater than the memory has room for. With the number 0 the same text needs no room for spaces. [C167_work_partial] C167. The work for compact texts: all the strings of spaces together have at most `n` characters for each value and each level. Missing: a bound in proportion to the text (`C167_work_fails`). [C167_work_fails] C167 fails: the text of `k` arrays in each other has `2 * k + 1` characters; to print it `n * (k + 1) * (k + 2) / 2` spaces are made, none of which is written, and all of them are kept at the same time. With the default `n = 2` these are `(k + 1) * (k + 2)`. [C167_stack_fails] C167 fails: whatever the stack has room for, there is a value with a text of twice as many characters that cannot be printed."
  },
  {
   "property": "C168",
   "status": "partial",
   "theorems": [
    "Caitlyn.C168_types_fails",
    "Caitlyn.C168_partial",
    "Caitlyn.C168_exact_fails",
    "Caitlyn.C168_vector_fails",
    "Caitlyn.C168_map_fails"
   ],
   "note": "[C168_types_fails] C168, exactly. `T{value}` is a copy of `value` unless `T` is a class with a list constructor whose elements can be made from a `T`: a vector of `std::any`, a vector of trees, a tree. For these it is never a copy. [C168_partial] C168. For all other types of values and errors, programs with variables of type `Expected` compute with a sum type. Missing: the types of `C168_types_fails`. [C168_exact_fails] C168, exactly, for all types and all programs without `Map`: a variable with a value holds the value of the sum type with braces put around it as often as it has been constructed; an error has them once, from the constructor of `Unexpected`. [C168_vector_fails] C168 fails: an `Expected<std::vector<std::any>, E>` made from a vector holds a vector with one element, which holds the vector; after `n` copies of copies it is `n + 1` vectors deep. Two copies of one variable have the same contents, which are not those of the variable. [C168_map_fails] C168 fails: `Map` with the function that returns its argument gives another value, and an error that is a vector of `std::any` is not the one that was given to `MakeError`."
  },
  {
   "property": "C169",
   "status": "partial",
   "theorems": [
    "Caitlyn.JsonMacro.C169_partial",
    "Caitlyn.JsonMacro.C169_other",
    "Caitlyn.JsonMacro.C169_escape_fails",
    "Caitlyn.JsonMacro.C169_comment_fails",
    "Caitlyn.JsonMacro.C169_trigraph_fails"
   ],
   "note": "[C169_partial] C169, for ASCII sources without `\\`, comments and, where the compiler replaces them, trigraphs: `JSON_STRING` gives a document without error exactly when `Parse` does for the characters as they are written, and it is the same document; how the source is laid out does not matter. Missing: sources with a `\\` in a literal (see `C169_escape_fails`), with comments and with trigraphs (see `C169_comment_fails` and `C169_trigraph_fails`), and which error is reported for the others. [C169_escape_fails] C169 fails for `\\`: the compiler and the parser do not agree on where a literal ends, so that white space in a string, as the parser reads it, is made one space. [C169_comment_fails] C169 fails for comments: they are read over in the source, and `Parse` has an error. [C169_trigraph_fails] C169 fails for trigraphs, with a compiler of C++11 or C++14, the standard the library is written for."
  },
  {
   "property": "C170",
   "status": "partial",
   "theorems": [
    "Caitlyn.FindCost.C170_same",
    "Caitlyn.FindCost.C170_partial",
    "Caitlyn.FindCost.C170_least",
    "Caitlyn.FindCost.C170_run_fails",
    "Caitlyn.FindCost.C170_fails"
   ],
   "note": "[C170_partial] C170, the work that is done: at most one comparison for each character of the text, and as many as the pattern has further characters for each place of the text with the first character of the pattern. In particular, patterns of one character — the only ones the library itself looks for — are found in linear time, and the product of the lengths is a bound. Missing: a bound that is linear in the lengths, see `C170_fails`. [C170_run_fails] C170 fails, exactly, for every two characters `a` and `b`: `m + 1` times `a` and a `b` are looked for in `n` more `a`s than that with `(m + 2) n + m + 1` comparisons. [C170_fails] C170 fails: for no number `k` are at most `k` comparisons made for each character of the text and the pattern, neither by `Contains` nor by `Find` nor by `ReverseFind`. (`KMP` of the same library makes at most two, see C126.)"
  },
  {
   "property": "C171",
   "status": "partial",
   "theorems": [
    "Caitlyn.C171_destroy",
    "Caitlyn.C171_copy",
    "Caitlyn.C171_partial",
    "Caitlyn.C171_fails",
    "Caitlyn.C171_parsed"
   ],
   "note": "[C171_partial] C171. A program of `n + 1` statements, whatever they are, makes no value higher than `2 ^ n`. [C171_fails] C171 does not hold: there is no number of calls that is enough. Not only the text of a document can make values high (`C128_fails`, `C167_stack_fails`): `n` statements `place.Append(v)` after the declaration of `v` make a value that is `2 ^ n` high, the most there can be (`C171_partial`), and neither its destructor at the end of the scope nor a copy of it get by with fewer calls inside one another."
  },
  {
   "property": "C172",
   "status": "partial",
   "theorems": [
    "Caitlyn.C172_same",
    "Caitlyn.C172_multiply",
    "Caitlyn.C172_partial",
    "Caitlyn.C172_fails"
   ],
   "note": "[C172_partial] C172, what holds of `Divide` (of an `m`-digit number by one of `n` digits, not zero). The loops over digits run at least `2 m n` and at most `m (15 n + 1)` times. The digits moved are at least `0 + 1 + ... + (m - 1)`, whatever the divisor, and at most `m n` more. [C172_fails] C172 does not hold of `Divide`: for no `k` is the work at most `k` times the product of the numbers of digits, not even for divisors of one digit. `quotient.digits_.insert(quotient.digits_.begin(), x)` moves every digit of the quotient found so far, in every round."
  },
  {
   "property": "C173",
   "status": "partial",
   "theorems": [
    "Caitlyn.C173_same",
    "Caitlyn.C173_partial",
    "Caitlyn.C173_sqrt_partial",
    "Caitlyn.C173_fails",
    "Caitlyn.C173_sqrt_fails",
    "Caitlyn.C173_square_fails"
   ],
   "note": "[C173_partial] C173, what holds: `Pow` (with an exponent below `2 ^ k`) forms only numbers with at most twice as many digits as its result, and the last of them is the base to the first power of two above the exponent. [C173_sqrt_partial] C173, what holds of `Sqrt`: it forms only numbers with at most twice as many digits as its argument. [C173_fails] C173 does not hold of `Pow`: whatever the positive exponent, and whatever the base of at least two digits, a number with more digits than the result is formed, namely by the last squaring, of which nothing is used. [C173_sqrt_fails] C173 does not hold of `Sqrt` either: of every number from 40 on the first round forms one with more digits than it. [C173_square_fails] C173. The bound of `C173_partial` is reached, for every base and infinitely many exponents: to compute `x` to a power of two, the square of the result is computed."
  },
  {
   "property": "C174",
   "status": "partial",
   "theorems": [
    "Caitlyn.C174_variables",
    "Caitlyn.C174_partial",
    "Caitlyn.C174_fails",
    "Caitlyn.C174_temporary_fails"
   ],
   "note": "[C174_partial] C174, exactly: after any program `p`, `const T& r = x.Get();` (or `const E& r = x.GetError();`) and any statements `q` without undefined behaviour, reading `r` is defined if and only if `x` has existed and has held a value (an error) all the time of `q`; and what is read is then what `x` holds now. [C174_fails] C174 does not hold: the variable exists all the time and holds a value at the end, but in between it held an error, and reading the reference is undefined. For all values and errors. [C174_temporary_fails] C174. A reference to the value of a temporary, `const T& r = f().Get();`, is never valid: reading it is undefined, whatever the program and the statements between. (`UnwrapOr` returns a copy.)"
  },
  {
   "property": "C175",
   "status": "partial",
   "theorems": [
    "Caitlyn.C175_own",
    "Caitlyn.C175_inline_partial",
    "Caitlyn.C175_partial",
    "Caitlyn.C175_cpp11_partial",
    "Caitlyn.C175_plus",
    "Caitlyn.C175_later",
    "Caitlyn.C175_fails",
    "Caitlyn.C175_choice_fails"
   ],
   "note": "[C175_inline_partial] C175, the programs of C++17 and later: every use links. [C175_partial] C175, the programs of C++14, exactly: a use does not link if and only if the place takes a reference and the expression can stand for the constant itself. So every expression can be given to the places that take values. [C175_cpp11_partial] C175, the programs of C++11 (the standard with which the library is built), exactly: a use does not link if and only if the place takes a reference and the expression can stand for the constant itself, or somewhere in the expression a conditional or comma operator chooses it or throws it away, whatever the place. [C175_fails] C175 does not hold: before C++17 a program with `String::Format(\"{}\", String::NPosition)` does not link, nor one that hands a constant to a `StringBuilder`, a file, the console, an `Expected` or a message of a failed test. [C175_choice_fails] C175 does not hold for parameters by value either: in C++11 no program with `s.Find(t, c ? n : String::NPosition)`, `n` of type `SizeType`, links, at any place."
  },
  {
   "property": "C176",
   "status": "proved",
   "theorems": [
    "Caitlyn.C176_same",
    "Caitlyn.C176_linear",
    "Caitlyn.C176_written",
    "Caitlyn.C176_least",
    "Caitlyn.C176_plain",
    "Caitlyn.C176_padded",
    "Caitlyn.C176_precision"
   ],
   "note": "[C176_same] C176. The copies of the model that count compute what the model computes, for all templates and arguments, with exceptions and undefined behaviour. [C176_linear] C176 holds: whatever the template and the arguments (of characters, without zero), and whether or not there is an exception, at most 26 steps are made for each character of the template, each character of the arguments and each byte written. [C176_written] C176. What is written is the text of the result, if there is one. [C176_least] C176. The bound is the best but for the factor: with a result at least one step is made for each character of the template and of the arguments and each byte of the result. [C176_plain] C176. Text without braces, exactly: four comparisons for each character, and each byte is written, copied and decoded twice. [C176_padded] C176. A padded argument, exactly. [C176_precision] C176. An argument without a point and a precision, exactly."
  }
 ]
}