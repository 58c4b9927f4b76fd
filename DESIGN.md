# Formal model of szawrowski/caitlyn in Lean 4

## 1. What is built and how to read it

* `lean/Verif/Basic.lean`: outcomes of C++ calls (`Res`), error kinds, `size_t`.
* `lean/Verif/Model/*.lean`: the model, one file per header of /repo.  Every
  definition cites the header and the lines it models and says where it simplifies.
* `lean/Verif/Spec/*.lean`: small specifications that do not mention the model.
* `lean/Verif/Proofs/*.lean`: helper lemmas.
* `lean/Verif/Props/*.lean`: the property theorems (named `Cxx_...`), each with an
  `example` showing that its hypotheses are met by a concrete non-trivial case.
* `lean/Verif.lean` imports the Props modules; everything else is reached from them.
* `AXIOMS.md` lists the axioms each property theorem depends on, as Lean reports them.
* `MANIFEST.json` maps every property of `properties.jsonl` to its theorems.
* `seeded/LOG.jsonl` records the mutation experiments.

## 2. Modelling decisions

* C++ calls are `Res α := Except Err α`.  `Err` has one constructor per C++
  exception class used by the library, plus `ub` (undefined behaviour: an
  out-of-bounds access, use of a null or freed object, signed overflow) and `fuel`
  (a loop did not finish within the number of iterations given to the model).  `ub`
  and `fuel` are never confused with a value.
* Bytes are `UInt8`, code points `Nat` (below 2^21 wherever the code computes one).  A `Char` is the list of its bytes
  (`std::string data_`), a `String` the list of its `Char`s (`std::vector<Char>`).
  `std::string` indexing: index = size reads NUL, beyond it is `ub`.
  `std::vector` indexing at or beyond size is `ub`.
* A `const char*` is the list of bytes readable from it to the end of its array; reading
  on past the end of the list is `ub`.
* Platform: Linux LP64, `size_t` is 64 bits.  Wrap-around of `size_t` is written out where
  the code relies on or suffers from it.  Sizes of containers are natural numbers; theorems
  for which this matters assume sizes below 2^63 (no larger object exists).
* Memory exhaustion is modelled only where the code asks for a size it computes itself from data and can reach
  absurd values: `Err.memory` stands for the `std::bad_alloc`/`std::length_error` of `std::string(n, '0')` in
  BigFloat's Divide and of the buffer in `File::Read`; and in the copies made for C129, C130, C132 and C149, where any allocation may
  fail, and for C150, where any stream may stop growing.  Other allocations succeed.
* The stack is unlimited, except in the copy of the JSON parser made for C128, where `memory` stands for its exhaustion.
* Loops whose termination is not structural take a fuel argument; adequacy of the fuel is a
  theorem, not an assumption.
* Floating point (`double`, `std::stod`, printing of doubles) is a parameter of the JSON
  model: theorems hold for every such parameter.
* Where the code violates a property, the negation is proved with a concrete witness,
  the strongest true part is proved under the suffix `_partial`, and section 5
  records the disagreement.

## 3. Trusted base

* Lean 4.33.0's kernel and elaborator (statements are what Lean parsed).
* The axioms `propext`, `Classical.choice` and `Quot.sound` at most; `AXIOMS.md` gives the exact set for every
  property theorem.  There is no axiom of our own, no `sorry`, no `native_decide`, no `bv_decide`.
* Mathlib, imported module by module, only for the rational numbers and the square root in statements about
  BigFloat and random numbers (`Proofs/BigFloatValue.lean`, `Props/Random.lean`), for the closure of relations in statements about
  chains of owners (`Spec/UniqueLinks.lean`) and for tactics.  Its theorems are checked by the same kernel.
* The specifications in `Spec/` and the definitions inside `Props/` that statements mention.
* The faithfulness of the model to the C++ text and to the C++ standard library, established by reading; the code
  was neither compiled nor run.  Section 6 lists what was modelled and what was not.  As a check of the model,
  `Props/RepoTests.lean` states the assertions of the project's own tests and the outputs in its documentation about the
  model; all hold but one documented output (`C124_escaped_fails`).

## 4. Plan per property

C01-C03  model `Char` (Model/Char); C01 against Lean core's own `String.utf8EncodeChar`;
         C02 by arithmetic on the four ranges; C03 by case analysis on the lead byte.
C04-C06  model `BasicString(const char*)` and `DecodeUtf8Char` on readable memory; induction on
         the buffer. C06 fails (truncated sequence at the end reads past the terminator;
         overlong forms and surrogates are accepted): witnesses plus an exact classification.
C07-C08  lexicographic order lemma for prefix-free codes.
C09-C15  `String` operations against list operations (`++`, `take`/`drop`, `<+:`, `<:+`, `<:+:`).
         C12, C13 partly fail: exact characterisation.
C16-C21  `Char/Utility.h` functions on ranges of code points; `omega` or kernel evaluation on finite tables.
C22      KMP with in-bounds checked accesses; invariant "longest border", induction on the text.
C23-C26  `String/Utility.h`; induction on the text.
C27      `std::ostringstream` as (buffer, put position); refinement to a map from builders to text.
C28-C35  `Format` as a scanner over the template; induction on the template.
C36-C47  `BigInteger` as sign + little-endian `int` digits; value function to Int; loop invariants.
C48-C51  `BigFloat` as a pair of BigIntegers; witnesses for the failures, positive fragments.
C52-C64  JSON data as an inductive tree, printer, parser with position and error state, document API.
C65-C67  `Expected` as tag + value; lifetime as a state machine over constructed objects.
C68-C72  heap of objects and handles; invariants over all histories.
C73-C76  a file as bytes plus `std::fstream` state (eof/fail bits, position); histories of calls.
C77      `std::cin` as the bytes still to be read.
C78-C82  test registry with its log and clock, application object, comparators, map utilities.
C83-C86  the remaining members of `BigFloat`, against rational arithmetic.
C87-C88  `File`: Erase, positions.
C89-C92  the report as text against a specification of the report; assertion macros as statements that may throw.
C93-C97  more of `String` and `Char`: failing Append, FindIf, repeat constructors, IsNumber, comparisons.
C98      `double` as the exact rational it stands for, printed with six decimals.
C99      a store of named JSON documents, against a map from names to values.
C100     programs of console writes and reads, against two byte streams.
C101     C++ types as an inductive type; each trait against the standard's definition of its std counterpart.
C102     programs over a store of builders, against a log of what was written through each.
C103     the engine as an unknown function of the clock, the distributions by what the standard requires of them.
C104     threads as lists of statements, interleaved by an arbitrary schedule at the atomic operations on counters;
         emptiness of a thread's variables depends on that thread alone, the rest is the sequential invariant.
C105     pointers as addresses and owners as addresses with a counter; case analysis.
C106-C107  tables of the Unicode character database for the characters concerned; kernel evaluation over all entries, ranges by `omega`.
C108     a declaration as the names it defines; programs as translation units, any order of initialisation as a permutation.
C109     extraction as `getline` plus decoding; induction on the lines of the stream.
C110     expressions as category and type, reference collapsing by the standard's rules; case analysis over the types.
C111, C115  a grammar of specifications and templates independent of the scanner, unique decomposition, then one outcome per item.
C112, C124  arguments as type and value, overload resolution among the candidates; one case per kind of argument.
C113     what each call does to an open and to a closed stream; every error traced to its cause.
C114     programs over variables with lifetimes, against a map from names to values of a sum type.
C116     a reader that consumes the text once, without positions; equality with the parser by induction on the nesting depth.
C117-C118  platforms as the set of predefined macros and a data model; finite case analysis over all of them.
C119-C120  headers as sequences of guards, includes and definitions; any list of includes, any number of translation units.
C121     the categories as functions on the types of C101; structural cases.
C122     the special members of each class as declared, the traits by what the standard asks; kernel evaluation over all classes.
C123     `SizeOf` on 64-bit words; the comparison operators of the error types.
C125     the theorems about printing, files and parsing composed; the compact form has no line feed by induction on the value.
C126     a copy of the search that counts comparisons; the matched length as potential, a mismatch lowers it.
C127     the loops take the number of rounds as fuel; halving of the exponent and of the interval.
C128     a copy of the parser with a limited number of nested calls; equality while the brackets ahead are fewer, and a document for
         every limit.
C129     the steps of copying numbered, any of them may fail; induction on the value for the steps and nodes; failure at the last step.
C130     the same for the arguments; the vector's reserved places decide which steps exist; induction on the arguments and the calls.
C131     all enumerators; the units by their prefixes.
C132     the pointer model with failing constructions and Resets; one step exactly, and a history that deletes too early.
C133     triviality added to the special members of C122; induction on the type.
C134     overload sets with qualifiers and access; resolution analysed for sets without reference qualifiers, witnesses for others.
C135     the names each body uses on top of the include model of C119; invariants of reading for the order; closure by a finite table.
C136-C138  objects with members that are pointers; every living object has exactly one owner, so that what a variable reaches is a
         tree; deletion with a list of objects still to be deleted, by induction on the number of living ones.
C139     the registry with executions that register tests; the walk through the map as the next suite above the last one; an
         invariant of its rounds for the executions, a measure for the end, agreement with the model of C78.
C140     a copy of the parser that counts, proved to compute the same; bounds from above by partial correctness over the length
         passed, from below over the value returned; families of texts from the grammar.
C141     a machine without streams; simulation step by step over the reachable states of the stream bits.
C142     interleavings of the steps of the calls with a trace; an invariant that relates each thread's place to the trace, and for every
         mixture of the arguments a schedule that produces it.
C143     two buffers in front of one file, emptied at the will of an oracle; the possible outputs as an inductive relation, equal to
         those of the model.
C144     the grammar of binary operators as a relation on sequences of tokens, proved total and unambiguous; typing of the expression;
         executions of the statement as steps in every order, with the set of possible messages.
C145     two meanings of a program, with integers and with pairs of magnitude and flag; the model simulates the second for all
         programs, the second the first exactly up to the first statement of a list; the quotients by the zero with a flag apart.
C146     the exact meaning of a program with pairs of integers, total up to the operations that never end, which it names; the model
         agrees for all programs and all amounts of fuel; against it, programs on natural numbers and programs that go wrong.
C147     the meaning of a program over sequences of code points, intended and exact; simulation of every statement, undefined
         behaviour included; scalar values as an invariant of programs without lower case.
C148     the groups of digits as a partition of the digits; the output with an arbitrary writer of numbers, compared by length; the
         grammar of C56 for what is read back; every locale and every number.
C149     programs on JSON variables with any schedule of failing allocations; a plain meaning of statements as reference; accounting
         of nodes as an invariant of all runs; variables without an array as an invariant of runs that cannot end normally.
C150     streams as buffers that stop growing at any size, chosen for every stream; printing as a relation between a value and what
         may come out; parsing run twice, with and without limits, and the two results related by a relation on values.
C151     references as node numbers in programs on JSON variables; the specification without memory keeps a path for each; nodes of
         different places differ, nodes once released stay so; a run step by step keeps every path or releases its node.
C152     calls as sequences of operations on stream objects with their ties; threads with mutexes as an interleaving semantics;
         happens-before as an inductive relation on a trace; races shown for every execution, absence of races from the positions of
         unlock and lock between two uses.
C153/154 strings as vectors with storage and capacity, every attempt to allocate may fail, growth left open (any policy that gives
         enough); an invariant (each storage belongs to one string, each valid reference to the position it was made for) kept by
         the changes of storage; exact conditions for the end of a reference and for undefined statements by the room of a string.
C155     queries as chains of lookups and a question, cut into the steps that use `type_` or `data_` of one node; all interleavings;
         threads that only read keep an invariant that fixes their answers; a lookup that inserts gives a race by the shape of
         the root, which only a write to its data can change.
C156     objects as trees whose nodes are flag and union; a reference is a place, and what it refers to is looked up again after
         each step of the assignment; all programs against trees of a recursive sum type.
C157     sequences of calls, each with a reading of the clock and an engine that is any function of it: which sequences of
         results exist, in terms of equal readings only.
C158     classes as trees of their bases, with places of subobjects; the traits against what the places say; programs with
         variables of type `UniquePtr<B>` against owners that know nothing of static types.
C159     types and conversions only: a use of a member compiles if every `return` in it converts; against the types of the
         operations on sums.
C160     overload resolution over the built-in types (ranks of conversions, one best candidate), then the conversion of the
         value; against the number that was given. Values of floating point types only as far as C98.
C161     lookup of operators: members, the global namespace as far as it has been read (on the include machine of C119), the
         namespaces of the operands; the detectors see what was read before them; conversions of strings to large numbers
C162     the machine of C68 with plain pointers beside the owners and temporaries made by the constructors that are not
         `explicit`; what every continuation comes to after an owner has been compared with its own pointer
C163     overload resolution of C160 for the assignment operators and for the conditions of the templates of `JsonData`, against
         what the constructors accept; `Assignable`, `NothrowAssignable`, `TriviallyAssignable`
C164     overload resolution for several arguments, with the template for iterators; the exact result of `String(n, c)`,
         `Append(n, c)` and `Insert(p, n, c)` for all values of all integer types; indexes and keys
C165     the programs of C145 and C146 with failing allocations and the storage of each vector, against the program without the
         statements that threw; what the assignment of a `BigFloat` leaves, exactly
C166     the `static` objects in the functions of the library on one stack with the static objects of the program ([basic.start.term]);
         which programs use a table in a destructor after it has been destroyed, exactly
C167     `MakeOutput` with room for a number of activations and of characters in strings of spaces, and the number of spaces made;
         exact need of memory and stack, bounds of the work
C168     what `T{value}` makes by the rules of list-initialization, for types with and without constructors for lists; how often the
         contents of each variable have been wrapped, exactly
C169     `JSON_STRING`: trigraphs, comments, white space and literals as the preprocessor reads them, and what `#` makes of them;
         then the grammar of JSON texts does not depend on the white space between tokens. The source is a list of
         characters; source with `'`, `\`, `#` or parentheses outside literals is not modelled.
C170     `std::search` of libstdc++ with a count of the comparisons; agreement with the model of `Find`, bounds, and the exact count for
         runs of one character
C171     The number of calls that the models of the destructor and of `CopyUnion` have room for, which C63 takes large enough: the exact
         number each variable of each program needs, the most that `n` statements can make it, and what the parser makes it.
C172     Copies of `Multiply`, `Divide` and the search of a digit that count the passes of the loops and the digits that inserting moves; they
         compute what the model computes; bounds from both sides, in the numbers of digits.
C173     Copies of `Pow` and `Sqrt` that list the numbers they form; how long these are, and which one `Pow` forms last.
C174     Programs with `Expected` variables and references to what they hold, with the rules of [basic.life] for objects made in the place of
         others; when exactly reading a reference is defined, and what it gives.
C175     Expressions with the constants of the library, the rules of C++11, C++14 and C++17 for odr-uses, and the places of the
         library that take values; when exactly a program links.
C176     `Format` with a count of rounds, comparisons, copies and bytes; same results as the model without, and at most 26 steps
         for each character of template and arguments and each byte written.

Not expressible here: the quality of the random numbers of `Random.h` (only which calls are defined and the range of
their results is a statement about code); timing of the test report (the clock is an arbitrary sequence of readings).

## 5. Where the code disagrees with a property

For each the negation is a theorem with a concrete witness.  This list is generated from the comments of those theorems.

<!-- generated: disagreements -->
* **C06, Malformed UTF-8 is rejected, never undefined.**
  * `C06_fails_truncated`: C06 is false as stated: a string ending in a lone three-byte lead is undefined behaviour.
  * `C06_fails_overlong`: C06 is false as stated: an overlong encoding and a surrogate are accepted although they are not UTF-8.
* **C09, Concatenation.**
  * `C09_self_fails`: C09 fails for `a += a`, where `a + a` is fine: `vector::insert` may not be given a range of its own elements, so the behaviour is undefined, for every string.
* **C12, ReverseFind returns the last occurrence.**
  * `C12_fails`: C12 is false as stated: the only occurrence of "na" ending by the end of "ana" starts at 1, but `ReverseFind` returns 2.
* **C13, StartsWith / EndsWith / Contains.**
  * `C13_contains_fails_empty`: C13, the excluded case: the empty string is not reported to contain the empty string, although it is a substring of it.
* **C14, Insert.**
  * `C14_self_fails`: C14 fails for a string that is inserted into itself, at whatever position: `vector::insert` may not be given a range of its own elements.
* **C17, Case-less characters are untouched by case mapping.**
  * `C17_fails_lower`: C17 is false for `ToLowercase`: every code point from U+1FEC on other than the Kelvin and Angstrom signs is changed to the one 8 below.
* **C18, Case mapping is idempotent.**
  * `C18_fails_lower`: C18 is false for `ToLowercase`: the euro sign keeps changing.
* **C19, Case mappings invert each other on basic alphabets.**
  * `C19_latin1_fails`: C19, Latin-1: no letter of U+00C0..U+00FE other than ß is mapped by either function; é (U+00E9) is its own upper case.
* **C21, IsDigit implies ToDigit.**
  * `C21_fails`: C21 is false: the Arabic-Indic digit five is accepted by `IsDigit` but has no `ToDigit` value.
* **C24, Repeat.**
  * `C24_fails`: C24 is false as stated: zero repetitions of a text give the text, whenever it is not empty.
* **C25, EscapeString resolves escapes.**
  * `C25_four_digits_fails`: C25 is false as stated: the four characters behind `\u` need not be digits. A sign, spaces, a prefix `0x` and letters that are no digits are taken as well.
  * `C25_fails`: C25 is false as stated: the euro sign's escape is an error, and the letter of an unknown escape comes out twice.
* **C26, First and last non-space.**
  * `C26_fails`: C26 is false as stated for `FindLastNonSpace`: it misses index 0 and reads out of bounds on the empty string.
* **C27, StringBuilder accumulates.**
  * `C27_fails`: C27 is false as stated: appending "X" to a copy of a builder holding "abc" gives "Xbc".
* **C32, Indexed placeholders with a specification.**
  * `C32_fails`: C32 is false as stated: `{1:>3}` formats the first argument.
  * `C32_exact_fails`: C32, exactly, for every specification: `{i:spec}` with a valid index stands for what `spec` makes of the argument whose number is that of the plain placeholders counted so far; so it stands for argument `i` if and only if this is the text of argument `i` in the same specification.
* **C34, Format never has undefined behaviour.**
  * `C34_fails`: C34 is false as stated: an empty specification, more `{}` than (two or more) arguments, and an index without any argument all read outside a container.
  * `C34_exact_fails`: C34, exactly: `Format` is undefined if and only if the first placeholder that cannot be rendered is undefined. Which ones are, `C115_undefined` says.
  * `C34_no_arguments_fails`: C34. Without arguments every placeholder that is not rejected is undefined, unless text follows its index.
* **C35, Unmatched brackets are reported.**
  * `C35_fails`: C35 is false as stated: an earlier placeholder can fail in another way first.
  * `C35_exact_fails`: C35, exactly: a template with an unmatched bracket raises `FormatError` if and only if no placeholder before the bracket is the first to fail with something else. Which kinds of failure there are, `C115_kinds` says.
* **C37, BigInteger rejects non-numbers.**
  * `C37_exact_fails`: C37, exactly, for what is accepted: the "digits" of the number are the code points less 48, whatever the script, without leading zeros; so the result is a number if and only if all of them are ASCII digits (a sign alone, with none, is 0).
  * `C37_fails`: C37 is false as stated: a lone sign is accepted as zero, and an Arabic-Indic three (U+0663) is accepted as a "digit" of value 1587.
* **C38, BigInteger addition is exact.**
  * `C38_fails`: C38 is false as stated: (-5) + 3 is 2, (-5) + 0 is 5, and 5 + (-5) is a zero that is not equal to 0.
* **C39, BigInteger subtraction is exact.**
  * `C39_fails`: C39 is false as stated: 5 - (-3) is 2, (-5) - 3 is -2, (-5) - (-3) is 2, (-5) - 5 is a zero that is not equal to 0.
* **C41, BigInteger division truncates.**
  * `C41_negative_zero_divisor_fails`: C41, the divisor that no number equals: dividing by "negative zero" (which `5 + (-5)` produces) is not detected and yields an invalid digit.
* **C42, BigInteger remainder.**
  * `C42_fails`: C42 is false as stated: (-6) % 3 is a zero that is not equal to 0 (it prints as "0").
* **C45, BigInteger comparisons are the integer order.**
  * `C45_fails`: C45 is false as stated: -5 < -3 is reported false.
* **C46, Canonical form is preserved.**
  * `C46_fails`: C46 is false as stated: a negative zero is computed from numerals.
* **C48, BigFloat parse/print round trip.**
  * `C48_fails`: C48 is false as stated: 0.05 is read as 0.5, and -0.5 as 0.5.
  * `C48_accepts_fails`: Texts that are no numerals are accepted, and printed again.
* **C49, BigFloat addition and subtraction terminate and are exact.**
  * `C49_diverges_fails`: C49 is false as stated: if exactly one of the numbers has a fraction, neither the sum nor the difference is ever returned, however many rounds the loops are allowed.
  * `C49_fails`: C49 is false as stated also where both terminate: 0.99 + 0.99 = 1.178, -1.5 + -1.7 = 1.2, -1.5 + 2.7 = 2.2, 1.10 - 0.95 = 0.-65, 1.5 - 2.7 = 0.8.
* **C50, BigFloat multiplication is exact.**
  * `C50_integers_fails`: C50 is false as stated: the product of two integers is a hundred times too large.
  * `C50_fails`: C50 is false as stated: 12 * 3 = 3600, 1.1 * 1.9 = 2.9, -1.5 * 0.5 = 0.75, 2.5 * 2 = 50.
* **C51, BigFloat order.**
  * `C51_fails`: C51 is false as stated: 1.5 < 1.25, 1.5 is not 1.50, and -2 < -1 is reported false.
* **C52, JSON print/parse round trip.**
  * `C52_bad_string_fails`: So a single quotation mark or backslash anywhere loses the document: here in a string of any array of any object.
  * `C52_fails`: C52 fails: a string with a quotation mark, a backslash or a line feed written as an escape, a key with a quotation mark, and `true` after a character that is not ASCII.
  * `C52_fails_float`: C52 fails for every floating point number printed as a plain decimal: it comes back as an integer.
* **C54, JSON parsing is memory safe.**
  * `C54_fails_unterminated`: C54 fails: on these texts `Parse` reads the character after the last one.
  * `C54_fails_throws`: C54: some texts make `Parse` throw instead of reporting an error: the escape writes a byte that is no UTF-8.
* **C56, Accepted input is JSON.**
  * `C56_fails_literals`: C56 fails: the literals are compared at a position in bytes, so that `{"é":true}` is rejected and a text that is no JSON is accepted.
  * `C56_fails_trailing`: C56 fails: text after the object is accepted if it ends in `}`.
  * `C56_fails_numbers`: C56: what is accepted of RFC 8259's numbers: `01`, `1.2.3` and `+1` are.
* **C57, JSON string escapes.**
  * `C57_fails_next_lost`: C57 fails, for every literal with one escape in front of another character: the escape is read correctly and the character that follows it is lost.
  * `C57_fails`: C57 fails: a literal that ends in an escape swallows its own end; `\/` is no escape; `\u` writes the low byte of the code point.
* **C58, JSON numbers.**
  * `C58_fails_range`: C58 fails, for every literal outside int64: the error reported is not `OutOfRangeError`.
  * `C58_fails_fraction`: C58 fails, for every literal with a fraction and without exponent: the fraction is lost.
* **C59, Object keys are unique.**
  * `C59_fails_getData`: C59 fails for writes through the reference that `GetData()` returns: nothing checks the keys.
* **C60, JsonDocument behaves as an insertion-ordered map.**
  * `C60_fails_after_error`: C60 fails for documents whose last parse reported an error: they have no members but their size is the largest number, and `operator[] const` is undefined instead of throwing.
* **C62, Typed getters are total and type checked.**
  * `C62_fails_make`: C62 fails, for every value: `MakeBoolean` makes a string; so do `MakeIntegral` and `MakeFloating`.
* **C63, Value semantics of JsonData.**
  * `C63_string_leaks_fails`: C63 fails for strings: no program ever releases one. After every program, the strings that have been constructed and not destroyed are all that the program has made, by declarations, copies, assignments and `Append`, whatever is still in use.
  * `C63_part_of_itself_fails`: C63 fails, for every value and every part of it: after every program, `a = a.part` and `a = std::move(a.part)` destroy the source before they read it.
  * `C63_whole_into_part_fails`: C63 fails, for every value and every part of it: after every program, `a.part = a` is defined, but does not give the part the value that `a` has had, except where the part has been equal to the array of the items, or the object of the members, before the one that it is in.
  * `C63_move_into_part_fails`: C63 fails, for every value and every part of it: after every program, `a.part = std::move(a)` is defined, but `a` is Null after it and its value is lost: of its nodes, only those below the part are released, the others are not, and belong to no variable.
  * `C63_remove_leaks_fails`: C63 fails: what `RemoveMember` removes is never released, after every program and for every document and key.
* **C64, Error messages identify the error.**
  * `C64_fails`: C64 fails.
* **C67, Expected lifetime safety.**
  * `C67_exact_fails`: C67 does not hold when copies may throw, exactly so: an assignment whose copy throws leaves a broken variable, and a history is undefined exactly when it uses one later (destroys it, assigns to it or from it, copies it). Otherwise every variable holds what the history says, every contained object ever created is alive or has been destroyed exactly once, and it is alive exactly when it is inside an existing variable that is not broken.
  * `C67_doomed_fails`: C67 does not hold when copies may throw: every assignment between two healthy variables that throws destroys the contents of its target for good, and no later statement gives them back: the target then can never be destroyed without undefined behaviour.
  * `C67_fails`: C67 does not hold when copies may throw: `Expected x{value}; Expected y{value}; try { x = y; } catch (...) {}` with a copy constructor that throws leaves `x` with its flag set but its value destroyed, and the destructor of `x` destroys the value again.
* **C69, SharedPtr frees the object exactly when the last owner goes.**
  * `C69_fails`: C69 does not hold: `{ SharedPtr x{new T}; }` never deletes the object, and no history does.
  * `C69_leaks_fails`: C69 does not hold: in no history is anything ever deleted.
* **C70, SharedPtrs share and own what the history says.**
  * `C70_undefined_fails`: C70 does not hold for empty pointers, and for nothing else: a history is undefined exactly when somewhere in it a `SharedPtr` (or a `WeakPtr`, or by `lock()`) is copy-constructed from an empty one.
  * `C70_fails`: C70 does not hold for empty pointers: `SharedPtr x; SharedPtr y{x};` uses a null counter.
* **C71, WeakPtr expires.**
  * `C71_fails`: C71 does not hold: after `SharedPtr x{new T}; WeakPtr y{x}; x.Reset();` there is no `SharedPtr` left, but `y` has not expired: it is an owner itself.
  * `C71_never_fails`: C71 does not hold, for any history: a `WeakPtr` made from a pointer to an object never expires as long as it is not itself assigned to, reset, moved or destroyed. Whatever becomes of the `SharedPtr`s, it refers to the object, which stays alive.
* **C75, Writes take effect.**
  * `C75_dropped_fails`: C75 is false as stated: on an open object whose stream is not good, writing does nothing, without an exception, and the stream stays so.
  * `C75_after_end_fails`: C75 is false as stated: the stream is not good after `ReadLine` has read the last line, for every content of the file and every number of lines already read.
  * `C75_open_fails`: C75 is false as stated: `Open` on an open object throws nothing and makes the stream useless: writes are dropped and `ReadLine` throws.
* **C76, File Read returns the content.**
  * `C76_no_nul_fails`: C76 is false as stated: `Read` never returns the content. Without a NUL byte in the file it returns nothing at all ...
  * `C76_text_fails`: ... for text it is undefined behaviour: the buffer is read beyond its end ...
  * `C76_after_end_fails`: C76. After the end was reached `Read` throws `std::length_error`, and from then on `ReadLine` throws.
* **C77, Console line input.**
  * `C77_fails`: C77 is false for `ReadChar` on an empty line and at the end of the input: it reads the first element of an empty string.
* **C78, Every registered test runs exactly once per RunAll.**
  * `C78_fails`: C78 fails: a test that throws an exception with the byte `0xFF` in its message ends the whole run; the tests after it are never executed, and `RunAll` throws.
* **C83, BigFloat division.**
  * `C83_fails`: C83 is false as stated: 1 / 0.5 exhausts the memory, 2.5 / 5 = 0 and 15.5 / 5 = 0.3: a tenth of the quotient, cut off. (7.5 / 2.5 = 3 and 1 / 3 = 0 are cases of `C83_partial`.)
* **C84, BigFloat powers.**
  * `C84_integers_fails`: C84 is false as stated: the power of an integer is `100 ^ e` times too large, for every base and exponent.
  * `C84_fails`: C84 is false as stated also for fractions: 2.5 to the power 1 is 25.
* **C85, BigFloat square root.**
  * `C85_itself_fails`: C85. `Sqrt` of a number below 1, or of 1, is the number itself: correct for 0 and 1 only. No exception for negative numbers.
  * `C85_diverges_fails`: C85 is false as stated: `Sqrt` of a number above 1 with a fraction never returns.
  * `C85_integers_fails`: C85 is false as stated: `Sqrt` of an integer above 1 returns the integer part of a tenth of the root.
  * `C85_fails`: C85 is false as stated: the roots of 16, 400 and 2 are 0, 2 and 0; the root of -16.5 is -16.5.
* **C86, BigFloat absolute value, copies, moves, size.**
  * `C86_abs_fails`: C86 is false as stated: `Abs` of a negative number is that negative number.
* **C87, Erase makes the file new.**
  * `C87_fails`: C87 is false as stated: the read position stays. A line written after `Erase` is not read if a longer one was read before, and `ReadLine` throws if the end was reached before.
* **C88, File positions can be saved and restored.**
  * `C88_fails`: C88 is false as stated at the end of the file: `GetPosition` returns -1 there, and `SetPosition` of that throws.
* **C89, The test report.**
  * `C89_fails_duration`: C89 fails for the durations of failed tests: here a test fails after 7 milliseconds, and the report says 0.
  * `C89_fails_second_run`: C89 fails for repeated runs: the counters are not reset, so after two runs of one passing test the report says that two tests passed.
* **C90, Assertion macros.**
  * `C90_twice_fails`: C90 fails for operands with side effects: to print the message the operands are evaluated again. Here the operand is a counter that is incremented by its evaluation; `ASSERT_EQ(next(), 1)` fails, the counter is then 2, and the message claims `1 != 1`.
  * `C90_else_fails`: C90 fails inside an `if` statement with `else`: the `else` belongs to the `if` of the macro. So `if (c) ASSERT_TRUE(x); else S` does nothing if `c` is false, and executes `S` if `c` and `x` are true. Here `x` stands for the negated condition of the macro, and `n` for the statement `S`.
  * `C90_semicolon_fails`: C90 fails for the comparing macros with `else`, too: written with a semicolon as `if (c) ASSERT_EQ(a, b); else S`, a function body does not compile, whatever follows, since the semicolon after the block ends the `if` statements.
  * `C90_compare_else_fails`: C90: without the semicolon, `if (c) ASSERT_EQ(a, b) else S`, it compiles, and as with `ASSERT_TRUE` the `else` belongs to the `if` of the macro.
* **C91, ASSERT_STREQ and FAIL_MESSAGE.**
  * `C91_streq_fails`: C91 fails: an `ASSERT_STREQ` that does not hold names the two texts, and then ends the process instead of the test.
  * `C91_evaluations_fails`: C91 fails: `ASSERT_STREQ` evaluates its operands up to four times, exactly as often as given here, and never both only once unless both are null. So an operand with a side effect is not compared as it was written.
  * `C91_rest_fails`: C91 fails: of `FAIL_MESSAGE() << v << ...` only the first value is reported and evaluated.
  * `C91_bare_fails`: C91 fails: `FAIL_MESSAGE();` without a message does not fail the test.
* **C92, Assertions decide the outcome of a test.**
  * `C92_fails`: C92 fails: a failed comparison of two `Char`s, one of which holds the single byte `0xE4`, has a message that cannot be shown; the run ends with it.
* **C93, A throwing Append leaves the string unchanged.**
  * `C93_fails`: C93 fails: `Append("ab\xFF")` throws and leaves "ab" appended.
* **C95, Repeated characters.**
  * `C95_fails`: C95 fails: appending its own first character twice to a string with full storage, as every copy of a string has, is undefined behaviour, for every string and every growth strategy.
* **C96, IsNumber recognises digit strings.**
  * `C96_fails`: C96 fails for bytes that are not ASCII: a character made from the byte 0xF0 alone is read past its end.
* **C98, BigFloat from double and from C strings.**
  * `C98_fails`: C98 fails: the object made from 0.0625 prints as 0.62500, the one made from -0.5 as 0.500000.
* **C99, JSON documents are independent values.**
  * `C99_fails`: C99 fails for streams with NUL bytes: what follows is dropped, and malformed text is accepted.
  * `C99_fails_error_kept`: C99 fails for the error flag after changes: a document whose parsing failed and which then was filled reports an error although it holds an object.
* **C100, Console programs write and read in order.**
  * `C100_fails`: C100 fails for `ReadLine`: the end of the input cannot be told from an empty line.
* **C101, Type traits agree with the standard.**
  * `C101_fails_remove_const`: C101 fails: `RemoveConstType<const volatile int>` is `int` where `volatile int` is asked for.
  * `C101_fails_references`: C101 fails: `AddLValueReferenceType<T&&>` is `T&&`, not `T&`; `AddPointerType` of a reference is the reference, not a pointer to what it refers to.
  * `C101_fails_rvalue`: C101 fails: `IsRValueReference` is true exactly on lvalue references.
  * `C101_fails_const`: C101 fails: no qualified type but `bool` counts as a number: `IsIntegral<const int>()` is false, `IsIntegral<const bool>()` true.
  * `C101_fails_queries`: C101 fails: the number of dimensions, the bound and the alignment are lost.
  * `C101_fails_operators`: C101 fails: `HasBitwiseOrOperatorType` tests `&`; input from a stream is tested with a value that cannot be read into, so a type that can only be read into variables (as `int`) is said to have no input operator.
* **C102, String builders are independent values.**
  * `C102_fails_copy`: C102 does not hold for copies: a copy of "abc" to which "X" is appended is "Xbc" (the original stays "abc").
  * `C102_fails_null`: C102 does not hold for a builder made from a null pointer: everything appended to it is lost.
* **C103, Random numbers stay in range.**
  * `C103_fails_order`: C103 does not hold when `min > max`: the behaviour is undefined, no exception is thrown.
  * `C103_fails_default_double`: C103 does not hold for the default range of `Double`: the call without arguments never gives a negative number or zero.
  * `C103_fails_wide`: C103 does not hold for wide ranges of `Double`: `Random(-max, max)` is undefined.
  * `C103_fails_nan`: C103 does not hold for NaN: it passes the check and the behaviour is undefined.
* **C104, SharedPtr in several threads.**
  * `C104_fails_leak`: C104 does not hold in full: when all threads and the main program have dropped their pointers, the object is still not deleted.
* **C106, Named characters are the characters they name.**
  * `C106_null_fails`: **C106 fails for `Def::Null`.** The constant is the empty C string, the same as `Def::Empty`: neither the `Char` nor the `String` made from it is the character NUL, both are empty.
* **C107, Character classes and case mappings agree with Unicode.**
  * `C107_digit_fails`: **C107 fails for some digits.** The digits of Sinhala Lith are decimal digits and `IsDigit` denies it; so it does for every code point above U+FFFF, where there are digits too (such as U+1D7CE, MATHEMATICAL BOLD DIGIT ZERO).
  * `C107_value_fails`: **C107 fails for the value of digits.** `ToDigit` gives the value of the ten ASCII digits and -1 for every other digit that `IsDigit` accepts.
  * `C107_case_fails`: **C107 fails for every other row.** For every other pair of letters of the same blocks one of the two letters is mapped to something else: `ToUppercase` for Latin-1 (é), half of the accented letters of Latin Extended-A (ź, ŀ), Greek with accent (ά), Cyrillic beyond Russian (ё) and all of Greek Extended; `ToLowercase` for the same but the rows of Greek Extended above.
  * `C107_class_fails`: **C107 fails for the classes in Latin Extended-A.** No letter of that block, apart from the special cases U+0130, U+0131 and U+0149, is a letter for the library, although the functions map many of them.
* **C108, Declared tests are registered and run.**
  * `C108_underscore_fails`: **C108 fails with underscores.** `TEST(A_B, C)` and `TEST(A, B_C)` are different tests and cannot be in one program, be it in different translation units.
  * `C108_fixture_fails`: **C108 fails for fixtures.** Two tests of the same name in different fixtures can never be in one program: `TEST_F` makes its names from the case alone.
* **C109, Strings are read from streams line by line.**
  * `C109_fails`: **C109 fails for a last line without newline.** `while (is >> str)` visits the lines and then visits the last line for ever: the extraction that meets the end of the text sets `eofbit`, and from then on `>>` neither assigns nor fails.
* **C110, Forwarding, moving and signedness of types.**
  * `C110_move_fails`: **C110 fails for moving temporaries.**
  * `C110_signed_fails`: **C110 fails for other types.** `IsSigned<void>()` and `IsSigned<std::nullptr_t>()` do not compile, nor does it for a class without conversion from `int` such as `String`; the standard traits are false there.
* **C111, Precision and value types in format specifications.**
  * `C111_too_large_fails`: C111, numbers too large: a width of `2^64` or more or a precision of `2^31` or more leaves the function by `std::out_of_range`, not by the library's `FormatError`.
  * `C111_round_fails`: C111, the number is cut, not rounded.
  * `C111_exponent_fails`: C111, an exponent is dropped: the result is ten orders of magnitude off.
  * `C111_zero_fails`: C111, with precision 0 or without a precision a point is left at the end.
* **C112, Conversion of the arguments of Format.**
  * `C112_characters_fails`: C112 fails for characters: `Format("{}", 'a')` is "97"; every character type is written as a number.
  * `C112_bytes_fails`: C112 fails for `signed char` and `unsigned char`, the types of `Int8` and `UInt8`: they are integers and characters, so two templates fit and the call is ambiguous.
  * `C112_volatile_fails`: C112 fails for volatile numbers: no function fits.
  * `C112_null_fails`: C112 fails for `nullptr`: it is taken for a C string and dereferenced, although `String::ValueOf(nullptr)` is "null".
  * `C112_small_fails`: C112 fails for small numbers: 2^-24, about 6·10^-8, is written as 0.
* **C114, Variables of type Expected behave like variables of a sum type.**
  * `C114_fails`: C114 fails if an assignment throws: the flag then names an object that does not exist, so that the end of the variable's lifetime and every assignment to it are undefined, and so is asking for what it seems to hold.
  * `C114_exact_fails`: C114 fails if an assignment throws, exactly so: for every program, with constructors and assignments throwing where they like, what the statements give and the variables after it are those of `Cells`, in which a variable whose assignment threw has lost its contents; and the program is undefined exactly when it needs the contents of such a variable, be it only to destroy or to replace them.
* **C115, Format on every template.**
  * `C115_digits_fails`: C115 fails for digits of other scripts: they start an index or a width, but cannot be read, and `invalid_argument` leaves the function.
  * `C115_accepts_fails`: C115 fails for wrong placeholders, which are not reported: text after an index makes the placeholder vanish, a word is taken for a plain placeholder, and what follows a specification is ignored.
* **C116, Parse on every text.**
  * `C116_four_digits_fails`: C116: the four characters behind `\u` need not be digits, against RFC 8259.
  * `C116_errors_fails`: C116 fails for the errors that name what is wrong with a value: a number that is out of range or wrong, a literal that is wrong and an object or array that is not closed are reported as an unexpected character, or as no JSON at all.
* **C117, The configuration recognises the platform.**
  * `C117_arch_fails`: C117 fails: ARM processors of 64 bits under Linux, Android and Apple's systems are taken for x86-64, because `__LP64__` is asked for first.
  * `C117_os_fails`: C117 fails for Android: its compilers define `__linux__`, which is asked for first, and `GetSystemName` returns "Linux".
  * `C117_compiler_fails`: C117 fails for Intel's compiler, which is taken for the one whose interface it has.
  * `C117_version_fails`: C117 fails for the version of a later release: the last number is that of the minor version again.
* **C118, The basic types have the widths in their names.**
  * `C118_pointers_fails`: C118 fails where pointers have 32 bits: `IntPtr` has 64.
  * `C118_same_fails`: C118 fails on Apple's systems of 64 bits: `Int64` is `long`, `std::int64_t` is `long long`, two types that overload differently.
* **C119, Headers can be included in any order.**
  * `C119_public_fails`: C119 fails where the case of letters counts, as under Linux: no header for users can be included, because `__Caitlyn.h` includes "caitlyn/__caitlyn/application.h".
* **C120, Programs of several translation units link.**
  * `C120_fails`: C120 fails where the file system ignores case and the headers for users can be included: a program of which two translation units include one of them does not link, because Application.h defines its static members in each.
* **C121, The categories divide the types.**
  * `C121_one_fails`: C121 fails for references and qualified numbers: `int&` is in two categories; `int&&` and `const int` are in none.
  * `C121_composite_fails`: C121 fails: a qualified number is arithmetic, but neither integral nor floating.
* **C122, The traits of operations tell the truth about the library's types.**
  * `C122_compiles_fails`: C122 fails: `Expected` always claims to be copyable, but copying compiles only if both of its types can be copied; the assignments of a plain pointer to `UniquePtr` and `SharedPtr` are found, but never compile.
  * `C122_nothrow_fails`: C122 fails: these operations are said not to throw, but what they do may throw, and then the program ends. Moving a `StringBuilder` moves a stream; moving a `JsonData`, and with it a document, moves a `std::deque`, which needs memory; and assigning to an `Expected` constructs, although only the assignment of the types was asked not to throw.
  * `C122_regular_fails`: C122 fails: a `StringBuilder` and a `File` can be copied and moved, but not assigned. Moving a `File` copies it, which may throw.
* **C123, Sizes of types and comparison of errors.**
  * `C123_bits_fails`: C123, exactly: the size in bits is taken modulo 2^64. It is wrong for every type of 2^61 bytes or more, such as an array of that many characters, whose size in bits is 0.
* **C124, Printing a value alone and in a template agree.**
  * `C124_numbers_fails`: C124 fails for numbers: every integer that `Write("{}", value)` prints in decimal is rejected by `Write(value)`; for booleans and floating point numbers it is the same.
  * `C124_escaped_fails`: C124 fails for the documented example (docs/usage/formatting.md): `WriteLine("escaped: {{text}}\n")` is said to print `escaped: {text}`, which is what `Format` makes of it, but it prints the brackets twice.
  * `C124_file_fails`: C124 fails for C strings that are not UTF-8: `Write(data)` of a file writes the bytes, `Write("{}", data)` throws.
* **C125, Values saved in a file are the same when loaded.**
  * `C125_read_fails`: C125 is false for `Read`: with any lines in the file, a program that loads the whole file and not line by line has undefined behaviour.
  * `C125_pretty_fails`: C125 is false for the pretty form: of a document with members, `ReadLine` returns the opening bracket only, and parsing it reads behind the end of the text.
* **C128, Parsing JSON needs a bounded stack.**
  * `C128_fails`: C128 is false for every fixed stack: documents that are well-formed, and that the program may have printed itself, need as many activations as they have levels. With room for `d` activations the document `{"a":[[...[0]...]]}` with `k` levels of arrays, of `2 * k + 7` characters, is parsed if `k + 2 ≤ d`, and exhausts the stack otherwise.
* **C129, Running out of memory while copying a JSON value leaves nothing behind.**
  * `C129_fails`: C129 is false for every value with an item or a member: if only the last step of the copy fails, every node of the copy but the outermost stays in memory, and nothing refers to them. `CopyUnion` keeps the new nodes in raw pointers, and an exception in a constructor does not run the destructor. By C129_bound no failure leaves more.
  * `C129_assign_fails`: C129 is false for assignments: whatever the variable held, after `a = b` failed for an array of one item the variable holds the empty array and the node made for the item is lost; if already making the array failed there is no array to destroy, although the type of the variable says so.
* **C130, Initialize has no effect if it runs out of memory.**
  * `C130_fails`: C130 is false: a call that runs out of memory has an effect. For every two arguments `a` and `b`: if copying the second fails, and the program calls `Initialize` with both again, `GetArgs()` has the first argument twice.
* **C131, The values of the enumerations agree with what they name.**
  * `C131_fails`: C131 is false for `Radix`: the value of no enumerator is its base.
* **C132, Running out of memory in SharedPtr harms no pointer.**
  * `C132_make_fails`: C132 is false for construction: after every history, if `SharedPtr x{new T}` runs out of memory, no variable and no counter changes, and the object just made stays in memory (`std::shared_ptr` deletes it).
  * `C132_fails`: C132 is false: a program without any wrong use of pointers deletes an object that is still owned. Three pointers share an object; `Reset` fails twice on the first, which then goes out of scope, as the second does; the third is left with a deleted object, and using it is undefined.
* **C133, A type is trivially copyable exactly if it owns nothing.**
  * `C133_fails`: C133 is false: a `Ptr`, which is nothing but a pointer, and an `Expected`, whatever it holds, are not trivially copyable: they write out the copies that the compiler would have generated. A `Ptr` is at least destroyed trivially; an `Expected` of two numbers is not.
* **C134, The detectors of members agree with what can be called.**
  * `C134_reference_fails`: C134 is false: for every class, a reference to it has neither `push_back` nor `resize`, because `typename T::value_type` is ill-formed for references.
  * `C134_qualified_fails`: C134 is false for members with qualifiers: `begin() &` is found for `T&` but not for `T`, although every variable of type `T` has it; and a private `begin()` hides a public `begin() const`.
* **C135, Every header can be compiled by itself and in every language standard.**
  * `C135_alone_fails`: C135 is false as stated: a source file that includes TestFailMessage.h first is rejected in every standard, because it uses `String` without including String.h.
  * `C135_cxx20_fails`: C135 is false as stated: from C++20 on, a source file that includes `<Caitlyn/String>` or another of these headers is rejected.
  * `C135_macro_fails`: C135 is false as stated: Json/Defs.h by itself declares `JSON_STRING`, but not `MakeDocument`, to which it expands.
* **C136, UniquePtr members can be assigned like std::unique_ptr.**
  * `C136_pop_fails`: After `node = std::move(node->next)` the program is undefined, whatever it did before: the assignment deletes the node, and with it the pointer it is about to move from. `std::unique_ptr` allows it, and it is how the first element of a list is removed.
* **C137, Owned objects are destroyed exactly when their owner lets go of them.**
  * `C137_fails`: `p = std::move(q)` with `p` a member of the object `q` points to, for instance `x->m = std::move(x)`, makes the object own itself: it is never destroyed, whatever the program does from then on.
* **C138, Destroying an object takes a bounded part of the stack.**
  * `C138_fails`: There is no bound: the end of the scope of a list of `n + 1` nodes runs `n + 1` destructors inside one another.
* **C139, Tests can register further tests.**
  * `C139_earlier_fails`: C139 fails: `RunAll` returns 0 and reports 2 tests, but the test that was registered for an earlier suite during the run has not been executed.
  * `C139_listed_fails`: C139 fails: the summary counts one failed test, and lists two: with the failed one, the test that was registered for an earlier suite and never executed.
  * `C139_own_fails`: C139 fails: a test that registers a test for its own suite makes `RunAll` use invalid iterators.
  * `C139_endless_fails`: C139 fails: if every test registers one for a new suite after its own, `RunAll` never returns: no number of rounds is enough.
* **C140, Parsing JSON takes time proportional to the length of the text.**
  * `C140_texts_fails`: C140 is false: the text `{"a":[true,true,...]}` with `k + 1` truths, of `5 * k + 12` characters, is copied as a whole `k + 1` times. The characters copied grow with the square of the length.
  * `C140_nodes_fails`: C140 is false: the items of arrays in arrays are copied level by level. The document `{"a":[[...[0]...]]}` with `k` levels, of `2 * k + 7` characters, which the program may have printed itself, takes `k * (k + 1)` copies of nodes at least.
  * `C140_keys_fails`: C140 is false: an object with different keys takes a comparison for every pair of them.
  * `C140_short_keys_fails`: C140 is false: the keys of an object need not be long for it. A text of `2 ^ w * (w + 5) + 1` characters takes `2 ^ w * (2 ^ w - 1) / 2` comparisons.
* **C142, Application is initialised once, in threads and before main.**
  * `C142_once_fails`: C142 fails: "can only be called once" does not hold for threads. For any number of calls there is an interleaving in which all of them return, and then `GetArgs()` can be every list that has the arguments of each call in their order, mixed in any way.
  * `C142_race_fails`: C142 fails: as soon as the calls of two threads are over, one has written `initialized_` and another has read it, without any synchronisation between the two: every such program has a data race.
  * `C142_null_fails`: C142 fails: a program that calls `Initialise()` before the object has been made gets a null pointer, and never gets another: whatever it does then, also after the object has been made, every call throws.
  * `C142_early_fails`: C142 fails: `Initialize`, also without arguments, calls a member function on a null pointer there.
* **C143, Including the library keeps the order of input and output.**
  * `C143_order_fails`: C143 fails: for every text `p` printed with a function of C and every text `q` written with the library thereafter, the output can be `q` before `p`; and if the buffer is not full before the end of the program, every text of the library comes before every text of C.
  * `C143_read_fails`: C143 fails: if the system gives the input in one piece, then after the first line read by the library the functions of C find the end of the input, whatever it still has.
* **C144, The message of a failing comparison shows the operands.**
  * `C144_compiles_fails`: C144, exactly: the macro compiles if and only if every operator in the operands binds more tightly than `<<` or is `<<` itself. So `ASSERT_EQ(x & 1, 0)`, `ASSERT_EQ(a < b, true)`, `ASSERT_EQ(x >> 1, 2)` and the like are rejected, although the operands can be compared and printed.
  * `C144_operators_fails`: The same with the operators named: nothing but `*`, `/`, `%`, `+`, `-` and `<<` is allowed outside parentheses.
  * `C144_shift_fails`: C144: whenever the macro compiles, the message shows each operand cut at its `<<`, so the operand `a << b` of two numbers appears as `a` followed by `b` instead of its value.
  * `C144_example_fails`: `ASSERT_EQ(1 << 3, 9)`: the message says `13 != 9`, the operand is 8.
  * `C144_capture_fails`: C144 fails for operands that mention a variable `oss` of the caller: `ASSERT_EQ(oss.str(), x)`, the usual way to test a `<<`, compares the caller's stream, but the message shows what the macro itself has written so far: nothing, the text, or the text and a parenthesis.
  * `C144_order_fails`: C144 fails for operands that share a side effect: `ASSERT_EQ(next(), next())` can show the two numbers in either order.
* **C145, Programs with BigInteger compute with integers.**
  * `C145_exact_fails`: C145, what every program gives that does not divide a number other than zero by a zero with the sign flag: what the operations on magnitude and flag give, with no other exception than those of the specification, no undefined behaviour and an end of all loops. The intended meaning differs (`C145_fails`).
  * `C145_sharp_fails`: C145, the statements of `Wrong` do go wrong: executed with the canonical numbers of the integers, each of them gives another output than intended or leaves a variable that is not the canonical number of the intended integer, and so compares unequal to it.
  * `C145_fails`: C145 is false as stated: `x = 5; y = -5; x = x + y; z = 0;` and then `x == z` is false, `x < z` is true, both print as 0, and `Sqrt` of `x` throws.
  * `C145_colons_fails`: C145, the programs that `C145_exact_fails` leaves out: a number other than zero divided by a zero with the flag is a number of as many digits as the dividend, each of them ten, and prints as so many colons.
  * `C145_overflow_fails`: C145: the square of such a quotient is undefined behaviour for every dividend: `Multiply` writes behind the end of the digits of the result. Every step before it is a call of the public interface that returns.
* **C146, Programs with BigFloat compute with decimal fractions.**
  * `C146_exact_fails`: C146, what every program gives: what the operations on the two integers give, if the numbers it computes with have less than 2^56 digits. It ends exactly if none of them hangs; there is no undefined behaviour. The intended meaning differs (`C146_fails`).
  * `C146_fails`: C146 is false as stated: programs that end, what they print and what they should have computed. In turn: reading 0.05 and -0.5, 0.99 + 0.99, 1.10 - 0.95, (1.5 - 2.7), 12 * 3, 15.5 / 5, the third power of 2, the absolute value of -3.
  * `C146_hangs_fails`: C146 is false as stated: programs of the public interface that should end and never do. In turn: 1.5 + 1, 2.5 - 2, the root of 2.25, and 0.5 + (0.5 + 0.5).
  * `C146_throws_fails`: C146 is false as stated: a difference of two numbers cannot be multiplied, and one cannot be divided by a half.
* **C147, Programs with String compute with texts.**
  * `C147_exact_fails`: C147, exactly what a program gives: what the exact meaning says about texts; undefined behaviour exactly if it says so. Nothing else happens: no exception but the ones that are caught, no endless loop, nothing in between two characters. The exact meaning is not the intended one (`C147_fails`).
  * `C147_fails`: C147 is false as stated: programs, what they give and what they should have given. In turn: `x += x`, `x.Insert(1, x)`, `ReverseFind` for "na" in "banana", for the empty text in "ab", `Find` for the empty text at the end of "ab", and `Contains` for the empty text in the empty text.
  * `C147_surrogate_fails`: C147 is false as stated: the program `x = String{"\uE000"}; x = x.ToLowercase(); x.str()` shows a surrogate, which is not UTF-8.
* **C148, Texts do not depend on the locale.**
  * `C148_text_fails`: C148 fails, and exactly when: the bytes that `ToString` writes for a JSON value, whatever its options, are those of the classic locale iff each number in the value is written as in the classic locale.
  * `C148_dot_fails`: C148 fails in a locale that separates groups by dots, for every integer: what `ToString` writes is read without an error as the integer cut after the first group; digits are lost iff it has more than one group. With groups of `g` digits, `g * ((digits - 1) / g)` digits are lost.
  * `C148_comma_fails`: C148 fails in a locale that separates groups by commas, for every integer in an array: what `ToString` writes is read without an error as one integer for each group: the number cut at its first group, and the other groups as non-negative integers, of which there are none iff the number has one group. With groups of `g` digits they are the digits of the number in base `10^g`.
  * `C148_double_fails`: C148 fails for `BigFloat(double)`: in a locale whose decimal point is another character of ASCII that is not a digit, it throws `invalid_argument` for every finite `double`.
  * `C148_format_fails`: C148 fails for `String::Format`: in a locale whose decimal point is another character of ASCII, a precision does not shorten a `double` but adds a dot and as many zeros, for every finite `double` and every precision.
* **C149, Running out of memory while a JSON value is built or changed harms no variable and leaves nothing behind.**
  * `C149_lost_fails`: C149 fails for statements that change the type: if the first step fails that may allocate, then for every value of another type the old value is gone, and the variable holds what nobody put there: an empty text, an empty object, for an assigned text a null-like object without a text, for an assigned array an object of type `Array` without an array.
  * `C149_leak_fails`: C149 fails: `x[key]` for a new key, with every object and every key: if the node can be allocated and the place for it cannot, the statement throws, `x` is as before, and the node stays: it belongs to no variable, and at the end of every continuation without further failures there is one node too many.
  * `C149_doomed_fails`: C149 fails for every value that is not an array and every value appended to it: if the constructor of the deque fails, `Append` throws and leaves a variable of type `Array` without an array, and then no program ends normally, whatever its statements and whatever fails: what remains is undefined behaviour or `std::terminate`, at the latest in the destructor.
  * `C149_terminate_fails`: C149 fails for moves: if the step of the move constructor of `std::deque` fails, a program that moves an array ends in `std::terminate`, whatever it moves it to and whatever follows: the functions are `noexcept`.
* **C150, Running out of memory never changes a text or a result silently.**
  * `C150_print_fails`: C150, printing, fails: for every value and every value with shorter keys and texts, printing the first may give the text of the second, without an exception.
  * `C150_texts_fails`: C150, parsing, fails: every text of every document may be lost, without an error.
  * `C150_cut_fails`: C150, parsing, fails: the texts of a document of ASCII characters without escapes may be cut after any number of characters, without an error.
  * `C150_numbers_fails`: C150, parsing, fails: a number loses its last digits without an error; or a document is reported as wrong; or `Parse` throws `std::out_of_range`.
  * `C150_equal_fails`: C150, comparisons, fails: a `String` may compare equal to every beginning of its text, even the empty one.
  * `C150_less_fails`: C150, comparisons: and it may compare less than its own text.
  * `C150_files_fails`: C150, files, fails: `Write` may write any beginning of the text, and otherwise does what a call that writes only this does; and `Open` may open the file whose name is any beginning of the name.
  * `C150_builder_fails`: C150, `StringBuilder`, fails: after one growth that fails every later `Append` does nothing, whatever it is given and however much memory there is by then.
* **C151, A reference into a JSON value stays valid until what it refers to is overwritten or destroyed.**
  * `C151_lookup_fails`: C151 fails: looking up a key is enough to invalidate references. After every program and for every reference to a part of a value that is not an object, `value[key]`, without an assignment, destroys what the reference refers to: every use of it afterwards is undefined.
* **C152, Threads can use the console at the same time.**
  * `C152_race_fails`: C152 (fails): when two threads make calls that use a common stream, and one of them uses no mutex, every execution of the program has a data race on that stream, whatever the other threads do. As `cerr` and `cin` are tied to `cout`, this concerns `ErrorStream` or `InputStream` in one thread and `OutputStream` in the other, too.
  * `C152_torn_fails`: C152 (fails): also where the streams are synchronized, so that there is no data race, `WriteLine` is not one step: of two threads that write a line each, the two texts can come in one line, with an empty line after it.
* **C153, Running out of memory in a String operation changes no String.**
  * `C153_append_fails`: C153 (fails): in every state that a program reaches, when a string has room for fewer characters than `Append` is to add, and the allocation fails, `Append` throws `std::bad_alloc`, but the characters for which there was room have been appended.
* **C154, A reference to a character of a String stays valid until the String is assigned or cleared.**
  * `C154_grown_fails`: C154 (fails): in every state that a program reaches, after `Append` of more characters than the string has room for, reading a reference to any of its characters is undefined, however strings grow.
  * `C154_pattern_fails`: C154 (fails): in every state that a program reaches, `x.Append(n, r)` with `r` a character of `x` is undefined when `n` is at least two more than the room of `x`, unless the allocation fails.
* **C155, A JSON value can be read by several threads at the same time.**
  * `C155_lookup_fails`: C155 (fails): a thread that only looks for a key that is not there, with `operator[]` or with `At` of a value that is not `const`, writes. When another thread looks for anything in the same value, every execution in which both come to their ends has a data race.
* **C156, An Expected can be assigned a part of what it holds.**
  * `C156_exact_fails`: C156, exactly, for all programs with variables of type `Expected` whose values contain further ones: if no statement assigns to a variable a proper part of what it holds, the variables hold what variables of a recursive sum type hold, and exceptions of `Get` and `at` leave them unchanged. If some statement does, the behaviour of the program is undefined, because the old value, and with it the part, is destroyed before the part is read.
* **C157, Numbers drawn one after the other are free of each other.**
  * `C157_exact_fails`: C157, exactly: a sequence of results within the range can occur, for some engine, if and only if calls at the same reading of the clock have the same result.
  * `C157_same_tick_fails`: C157 fails if the clock does not advance between the calls: all of them give the same number, whatever the engine.
  * `C157_dice_fails`: So two dice thrown in the same tick show the same face for every engine, and no two faces can be told apart.
  * `C157_count_fails`: C157: a program gets no more different numbers than the clock had different readings.
  * `C157_flips_fails`: C157 for `RandomBoolean`, exactly: if both outcomes are possible for the percentage, then a sequence of flips can occur if and only if flips at the same reading of the clock are the same.
* **C159, The operations of Expected have the types of those of a sum type.**
  * `C159_map_error_fails`: C159 fails for `MapError`, exactly: it compiles if and only if the function does not change the type of the error, whatever conversions there are.
  * `C159_and_then_fails`: C159 fails for `AndThen`, `Then`, `OrElse` and `CatchError`, exactly: they compile if and only if the function returns an `Expected` of the same types, a value of the same type or of one with a standard conversion to it, or an `Unexpected` of the same type.
  * `C159_chain_fails`: So a computation that may fail cannot be followed by one with another type of value: `AndThen` with a function that returns an `Expected<u, e>` compiles only if `u` is `t`, or `t` is itself that type.
  * `C159_names_fails`: C159 fails for `UnwrapOrDefault` and `Filter`: they never compile, for any types.
  * `C159_exact_fails`: C159, exactly, for all operations that have a wanted type: they compile, with this type, if and only if they keep the types, or, in the case of `AndThen` and `OrElse`, the wanted type is the type of the value itself.
* **C160, Built-in values given for objects of the library keep their meaning.**
  * `C160_big_float_fails`: C160 fails for `BigFloat`: no odd number beyond 2^53 is kept.
  * `C160_builder_fails`: C160 fails for `StringBuilder`: of a number that is given for one never the digits are written.
  * `C160_null_fails`: C160 fails for null pointers: `String`, `Char`, `BigInteger` and `BigFloat` can be made from `nullptr`, which is undefined behaviour; a `StringBuilder` made from it is empty. The literal `0` is a null pointer for `String`, does not compile for the others, although other literals do for `BigFloat` and `StringBuilder`.
  * `C160_call_fails`: C160 fails for calls: every function that takes a `String` takes the literal `0` and reads through a null pointer (`s == 0`, `s + 0`, `s.Append(0)`), and so does `s.Append(n, 0)`; every function takes `nullptr` and does so.
  * `C160_std_string_fails`: C160 fails for `std::string`: a `BigInteger`, `BigFloat` or `StringBuilder` can be made from one by `T x(s)`, but not by `T x = s` and not in a call.
* **C161, The operators of the library are found wherever its objects are used.**
  * `C161_namespace_fails`: C161 fails in every namespace that declares an operator of the same name for something else: exactly the operators that are members are still found, and those of `Unexpected<E>` if `E` is a class of the global namespace. Nothing can be written to a stream or read from one.
  * `C161_std_fails`: C161 fails in the templates of the standard library: large numbers can neither be sorted, nor searched for, nor summed up, nor multiplied, nor written or read through iterators of streams; strings can be sorted, searched for and summed up but not written or read; characters and pointers can be searched for.
  * `C161_umbrella_fails`: C161 fails for the detectors in every source file that begins with the header for everything, `Caitlyn/Caitlyn`: they deny all operators of large numbers and the output of documents, all of which compile there.
  * `C161_order_fails`: C161 fails: the answers depend on the order of the headers. A source file that reads `Caitlyn/Numeric` before `Caitlyn/Traits` is told that large integers have `<` and `+`, that they can be written, and that strings can be written and have `%`; one that reads `Caitlyn/Traits` first is told the opposite, whatever it reads then.
  * `C161_units_fails`: C161 fails: two translation units of one program that links can disagree about a class template with the same name, here `HasLessOperatorType<BigInteger>` and `HasOStreamOperatorType<String>`.
  * `C161_strings_fails`: C161 fails: strings are subtracted, multiplied and divided as numbers where only BigInteger.h has been read; reading BigFloat.h as well makes the same expression ambiguous. The remainder of two strings compiles in both cases.
* **C162, A plain pointer given where an owning pointer is expected is only looked at.**
  * `C162_self_fails`: C162 fails: a program that compares a `UniquePtr` with the pointer to its own object, or gives this pointer to a function that takes an owner, cannot end well. Whatever it does before and afterwards, the behaviour is undefined at some point, or some `UniquePtr` still owns the destroyed object; so it is undefined at the latest when the scopes of all variables have ended.
  * `C162_borrowed_fails`: C162 fails: an object that nobody owns is gone after a comparison with the pointer to it.
  * `C162_shared_fails`: C162 fails for `SharedPtr`: every comparison with a pointer to an object loses a counter for good: it is never deleted, whatever the program does afterwards.
  * `C162_weak_fails`: C162 fails: the comparison of a `WeakPtr` with an empty `SharedPtr` has undefined behaviour, whatever the `WeakPtr` holds.
* **C163, What can be given to a constructor can be assigned, and Assignable says which.**
  * `C163_same_fails`: C163. `BigInteger x(s)` compiles for a `std::string`, `x = s` does not; nor does any assignment to a `StringBuilder`.
  * `C163_text_fails`: C163. `json = String("x")` and `JsonData json(String("x"))` do not compile, though `JsonData` holds its texts as `String`, and `GetString` returns one.
  * `C163_trait_fails`: C163. The two errors about the literal `0`.
  * `C163_null_fails`: C163. `json = nullptr` does not make the value null but reads through the pointer; from C++23 on it does not compile.
* **C164, A number given as count, position or index is this number, and the character beside it this character.**
  * `C164_same_fails`: C164. For other characters it does not: `String(2, U'\u0101')` is two control characters, `String(2, U'\u20AC')` throws, `String(2, U'\0')` is two NUL, and `String(2, '\xE4')` throws, where `Append` makes two times the character, nothing for NUL, or the byte.
  * `C164_zero_fails`: C164. A literal `0` given for a character beside a count of integer type. `String(n, 0)` is zero bytes unless `n` is an `int`, when it does not compile; `Append(n, 0)` and `Insert(p, 0)` take it for a null pointer and read through it; `Insert(p, n, 0)` does not compile. With `nullptr` they all compile and read through it.
  * `C164_index_fails`: C164. `document[0]` compiles and reads through a null pointer, as do `document[nullptr]` and `json[nullptr]`; `json[0]` is the first element. A character is an index: `json['a']` is the element 97, and a negative index an element far beyond every end.
* **C165, Running out of memory in a statement on large numbers changes no number.**
  * `C165_float_fails`: C165 fails: when there is no memory for the fraction, a variable whose number differs from that of the other in both parts has a number afterwards that it had not before, and that is not the other's.
  * `C165_released_fails`: C165 fails for a vector that gives up its storage first: a `BigInteger` that is assigned a number too long for its storage has no digits afterwards, whatever it was, and a negative one keeps its sign.
* **C166, The functions of the library can be used in destructors of static objects.**
  * `C166_exact_fails`: C166, exactly. A program whose static objects use the library has the expected results if, and only if, each of the tables (and the registry) that the destructor of an object uses was used before the object was made, or is used by nothing else from then until that destructor. In every other program a destructor reads a table that is destroyed already.
  * `C166_fails`: C166 fails: a program that makes a static object and then makes a call, which the destructor of the object makes too. The table is made after the object and destroyed before it. With a call before the object is made, everything is as it should be.
  * `C166_two_fails`: C166 fails: two static objects whose destructors use a table that nothing else uses. The destructor that runs first has the table made, which is destroyed before the second destructor runs. One such object is all right, whatever number of calls its destructor makes.
* **C167, Printing a JSON value needs no more memory and work than its text.**
  * `C167_exact_fails`: C167, exactly. With room for `d` calls inside each other and `m` characters of spaces at a time, `ToString` gives the text that it gives without limits if, and only if, the values lie no deeper in each other than `d` and the strings of spaces that it keeps while it prints (one for each value that the current one lies in) fit; otherwise an allocation fails. The sums do not wrap around before that.
  * `C167_room_fails`: C167 fails: a compact text, which has no spaces, cannot be printed if the number of spaces given is greater than the memory has room for. With the number 0 the same text needs no room for spaces.
  * `C167_work_fails`: C167 fails: the text of `k` arrays in each other has `2 * k + 1` characters; to print it `n * (k + 1) * (k + 2) / 2` spaces are made, none of which is written, and all of them are kept at the same time. With the default `n = 2` these are `(k + 1) * (k + 2)`.
  * `C167_stack_fails`: C167 fails: whatever the stack has room for, there is a value with a text of twice as many characters that cannot be printed.
* **C168, An Expected holds what it is given, whatever the types of value and error.**
  * `C168_types_fails`: C168, exactly. `T{value}` is a copy of `value` unless `T` is a class with a list constructor whose elements can be made from a `T`: a vector of `std::any`, a vector of trees, a tree. For these it is never a copy.
  * `C168_exact_fails`: C168, exactly, for all types and all programs without `Map`: a variable with a value holds the value of the sum type with braces put around it as often as it has been constructed; an error has them once, from the constructor of `Unexpected`.
  * `C168_vector_fails`: C168 fails: an `Expected<std::vector<std::any>, E>` made from a vector holds a vector with one element, which holds the vector; after `n` copies of copies it is `n + 1` vectors deep. Two copies of one variable have the same contents, which are not those of the variable.
  * `C168_map_fails`: C168 fails: `Map` with the function that returns its argument gives another value, and an error that is a vector of `std::any` is not the one that was given to `MakeError`.
* **C169, JSON written in the source is the document of its characters.**
  * `C169_escape_fails`: C169 fails for `\`: the compiler and the parser do not agree on where a literal ends, so that white space in a string, as the parser reads it, is made one space.
  * `C169_comment_fails`: C169 fails for comments: they are read over in the source, and `Parse` has an error.
  * `C169_trigraph_fails`: C169 fails for trigraphs, with a compiler of C++11 or C++14, the standard the library is written for.
* **C170, Find, ReverseFind and Contains take linear time.**
  * `C170_run_fails`: C170 fails, exactly, for every two characters `a` and `b`: `m + 1` times `a` and a `b` are looked for in `n` more `a`s than that with `(m + 2) n + m + 1` comparisons.
  * `C170_fails`: C170 fails: for no number `k` are at most `k` comparisons made for each character of the text and the pattern, neither by `Contains` nor by `Find` nor by `ReverseFind`. (`KMP` of the same library makes at most two, see C126.)
* **C171, Destroying and copying a JSON value takes a bounded part of the stack.**
  * `C171_fails`: C171 does not hold: there is no number of calls that is enough. Not only the text of a document can make values high (`C128_fails`, `C167_stack_fails`): `n` statements `place.Append(v)` after the declaration of `v` make a value that is `2 ^ n` high, the most there can be (`C171_partial`), and neither its destructor at the end of the scope nor a copy of it get by with fewer calls inside one another.
* **C172, Multiplication and division of BigInteger take time in proportion to the product of the numbers of digits.**
  * `C172_fails`: C172 does not hold of `Divide`: for no `k` is the work at most `k` times the product of the numbers of digits, not even for divisors of one digit. `quotient.digits_.insert(quotient.digits_.begin(), x)` moves every digit of the quotient found so far, in every round.
* **C173, Powers and roots are computed with numbers no longer than argument and result.**
  * `C173_fails`: C173 does not hold of `Pow`: whatever the positive exponent, and whatever the base of at least two digits, a number with more digits than the result is formed, namely by the last squaring, of which nothing is used.
  * `C173_sqrt_fails`: C173 does not hold of `Sqrt` either: of every number from 40 on the first round forms one with more digits than it.
  * `C173_square_fails`: C173. The bound of `C173_partial` is reached, for every base and infinitely many exponents: to compute `x` to a power of two, the square of the result is computed.
* **C174, A reference to the value of an Expected stays valid as long as the Expected exists and holds a value.**
  * `C174_fails`: C174 does not hold: the variable exists all the time and holds a value at the end, but in between it held an error, and reading the reference is undefined. For all values and errors.
  * `C174_temporary_fails`: C174. A reference to the value of a temporary, `const T& r = f().Get();`, is never valid: reading it is undefined, whatever the program and the statements between. (`UnwrapOr` returns a copy.)
* **C175, The constants of the library can be used wherever a value of their type can.**
  * `C175_fails`: C175 does not hold: before C++17 a program with `String::Format("{}", String::NPosition)` does not link, nor one that hands a constant to a `StringBuilder`, a file, the console, an `Expected` or a message of a failed test.
  * `C175_choice_fails`: C175 does not hold for parameters by value either: in C++11 no program with `s.Find(t, c ? n : String::NPosition)`, `n` of type `SizeType`, links, at any place.
<!-- end generated -->

## 6. What is modelled

The table counts the lines of code of each header (without preprocessor lines, templates' headers and braces) that a
comment of the model cites.  A cited line is part of the definition whose comment cites it; simplifications are stated
there.  Lines not cited are not modelled.  Headers without code (they only include others) are left out.  The table is
generated by `tools/coverage.py`.

<!-- generated: coverage -->
| header | model | lines of code cited | not cited |
|---|---|---|---|
| __Caitlyn/Application.h | AppMem, AppThreads, Application, Config, ConsoleThreads, Headers, Statics, StdioSync | 45 of 46 | 79 |
| __Caitlyn/Config.h | Config | 2 of 2 |  |
| __Core/Char/Char.h | Assign, Char, Convert, Defs, Lookup, Special, StrMem, StrProg | 125 of 125 |  |
| __Core/Char/Defs.h | Defs, JsonMacro | 128 of 128 |  |
| __Core/Char/Utility.h | CharUtil, Statics, StrUtil | 258 of 258 |  |
| __Core/Collections/Utility/MapUtility.h | StdMap | 10 of 10 |  |
| __Core/Error/Expected.h | Expected, ExpectedBrace, ExpectedParts, ExpectedProg, ExpectedRefs, ExpectedTypes, OdrUse, Special | 139 of 139 |  |
| __Core/Error/Unexpected.h | Expected, ExpectedBrace, ExpectedTypes, Lookup, OdrUse, Sizes, Special | 14 of 14 |  |
| __Core/File/File.h | File, OdrUse, Special, StreamMem, WriteArgs | 211 of 211 |  |
| __Core/IO/Stream.h | Console, ConsoleProg, ConsoleThreads, OdrUse, StdioSync, WriteArgs | 78 of 78 |  |
| __Core/Memory/Types/DataSize.h | Enums | 35 of 35 |  |
| __Core/Memory/Types/MemoryFormat.h | Sizes | 3 of 3 |  |
| __Core/Memory/Types/RawPointer.h | Lookup, Ptr, PtrEq, Special | 34 of 34 |  |
| __Core/Memory/Types/SharedPointer.h | Lookup, Ptr, PtrEq, PtrMem, PtrTemp, SharedThreads, Special | 57 of 57 |  |
| __Core/Memory/Types/UniquePointer.h | Classes, Lookup, Ptr, PtrEq, PtrTemp, Special, UniqueLinks | 43 of 43 |  |
| __Core/Memory/Types/WeakPointer.h | Lookup, Ptr, PtrEq, PtrTemp, Special | 36 of 36 |  |
| __Core/Memory/Utility/SizeCalculation.h | Sizes | 4 of 4 |  |
| __Core/Numeric/Types/Radix.h | Enums | 5 of 5 |  |
| __Core/Numeric/Types/Sign.h | Enums | 3 of 3 |  |
| __Core/Numeric/Utility/Limits.h | Random | 6 of 6 |  |
| __Core/String/Algorithms/Kmp.h | Cost, Kmp | 19 of 19 |  |
| __Core/String/Defs.h | Defs, JsonMacro | 1 of 1 |  |
| __Core/String/String.h | Assign, Convert, Counts, Defs, Detect, Extract, File, FindCost, Format, FormatArgs, FormatCost, Locale, Lookup, OdrUse, Special, Statics, Str, StrMem, StrObj, StrProg, StreamMem | 443 of 443 |  |
| __Core/String/StringBuilder.h | Assign, Builder, BuilderProg, Convert, OdrUse, Special, StreamMem | 30 of 30 |  |
| __Core/String/Utility.h | CharUtil, Statics, StrUtil | 76 of 76 |  |
| __Core/Traits.h | Forward | 7 of 7 |  |
| __Core/Traits/Constraints/Composite.h | TraitsStd | 14 of 14 |  |
| __Core/Traits/Constraints/Operations.h | Assign, Classes, Special | 50 of 50 |  |
| __Core/Traits/Constraints/Primary.h | Traits, TraitsStd | 34 of 34 |  |
| __Core/Traits/Constraints/Properties.h | Classes, Forward, Special, TraitsStd | 20 of 20 |  |
| __Core/Traits/Constraints/PropertyQueries.h | Traits | 6 of 6 |  |
| __Core/Traits/Constraints/Relationships.h | Classes, Traits | 8 of 8 |  |
| __Core/Traits/Constraints/String.h | Assign, Convert, Counts, Defs, Detect, Extract, File, FindCost, Format, FormatArgs, FormatCost, Locale, Lookup, OdrUse, Special, Statics, Str, StrMem, StrObj, StrProg, StreamMem | 8 of 8 |  |
| __Core/Traits/Types/Base.h | OdrUse, Traits, TraitsStd | 5 of 5 |  |
| __Core/Traits/Types/Collections.h | Detect | 2 of 2 |  |
| __Core/Traits/Types/Pointers.h | Traits | 2 of 2 |  |
| __Core/Traits/Types/References.h | Traits | 4 of 4 |  |
| __Core/Utility/Comparators.h | Comparators, OdrUse | 20 of 20 |  |
| __Core/Utility/Random.h | Random | 33 of 33 |  |
| __Numeric/Types/BigFloat.h | Assign, BigFloat, BigFloatProg, Convert, Double, Locale, Lookup, NumMem, Special | 182 of 182 |  |
| __Numeric/Types/BigInteger.h | Assign, BigInt, BigIntProg, Convert, DivCost, Lookup, NumMem, OdrUse, PowTrace, Special | 225 of 225 |  |
| __Serializing/Json/Types/Json.h | Assign, Counts, JsonCost, JsonDoc, JsonMacro, JsonNodes, JsonParser, JsonProg, JsonStack, JsonThreads, Lookup, OdrUse, Special, Statics, StreamMem | 90 of 90 |  |
| __Serializing/Json/Types/JsonClass.h | JsonData | 8 of 8 |  |
| __Serializing/Json/Types/JsonData.h | Assign, Convert, Counts, JsonCost, JsonData, JsonMem, JsonMemProg, JsonNodes, JsonRefs, JsonThreads, Locale, OdrUse, PrintMem, Special, StreamMem | 343 of 343 |  |
| __Serializing/Json/Types/JsonError.h | JsonParser | 15 of 15 |  |
| __Serializing/Json/Types/JsonParser.h | JsonCost, JsonParser, JsonStack, Locale, StreamMem | 231 of 231 |  |
| __Serializing/Json/Utility.h | CharUtil, JsonDoc, StrUtil | 28 of 28 |  |
| __Testing/Macro/Assert.h | Assert, Declared, MacroExpr, OdrUse | 50 of 50 |  |
| __Testing/Macro/Test.h | Declared, Statics, TestDecl | 7 of 7 |  |
| __Testing/Macro/TestFixture.h | Classes, Declared, TestDecl | 8 of 8 |  |
| __Testing/Types/TestCase.h | Registry, Special | 10 of 10 |  |
| __Testing/Types/TestFailMessage.h | Assert, OdrUse | 12 of 12 |  |
| __Testing/Types/TestRegistry.h | Registry, RegistryAdd, Statics | 85 of 85 |  |
<!-- end coverage -->

Not modelled on purpose:

* the functions as compiled for other platforms than Linux with a conforming compiler (the one Windows branch in a function is
  Application.h:112); the configuration itself, the basic types and the inclusion of the headers are modelled for every
  platform (C117 to C120);
* the standard library below the interface the code uses: `std::string`, `std::vector`, `std::map`, `std::stoull`,
  streams and files are modelled by their specification in the C++ standard, not by an implementation;
* `BasicString(Iterator, Iterator)`: it calls `decode_utf8_char`, which is declared nowhere, so no instantiation of it
  compiles;
* `operator=(Pointer)` of `UniquePtr` and `SharedPtr` (they call `reset`, which does not exist) and `UniquePtr::Release` (it
  converts `const T*` to `T*`): no instantiation of them compiles;
* concurrency: `SharedPtr`'s counter is modelled as a sequence of atomic steps, other types as single threaded.
