import Verif.Model.Text

/-!
# The unit tests of `/repo/test/utils/TextUtilsTest.cpp`, run on the model

These examples are no proofs of properties.  They check that the model of `TextUtils.cpp` gives the values
the authors of the program expect.  Differences: `strip("")` is undefined behaviour in the model (both
iterators are dereferenced at the end of the string), while the test relies on what happens to lie there;
`createRandomString` is run with an arbitrary generator.
-/

namespace Verif.Conformance.TextUtils

open Verif.Text

/-- Test `splitWStringIntoWords`, `/repo/test/utils/TextUtilsTest.cpp:33-56`. -/
example :
    splitIntoWords (fun c => decide (c ∈ wordDelimiters)) "".toList = [] ∧
    splitIntoWords (fun c => decide (c ∈ wordDelimiters)) "foo bar baz".toList = ["foo".toList, "bar".toList, "baz".toList] ∧
    splitIntoWords (fun c => decide (c ∈ wordDelimiters)) "Januar Februar\tMärz\n\nApril".toList = ["Januar".toList, "Februar".toList, "März".toList, "April".toList] := by
  decide +kernel

/-- Test `splitStringIntoWords`, `/repo/test/utils/TextUtilsTest.cpp:59-95`. -/
example :
    splitIntoWords (fun c => decide (c ∈ wordDelimiters)) "".toList = [] ∧
    splitIntoWords (fun c => decide (c ∈ wordDelimiters)) "foo bar baz".toList = ["foo".toList, "bar".toList, "baz".toList] ∧
    splitIntoWords (fun c => decide (c ∈ wordDelimiters)) "Monday Tuesday\tWednesday\n \nThursday".toList = ["Monday".toList, "Tuesday".toList, "Wednesday".toList, "Thursday".toList] ∧
    splitIntoWords (fun c => decide (c ∈ "\t".toList)) "Monday Tuesday\t\tWednesday\n \nThursday\tFriday".toList = ["Monday Tuesday".toList, "Wednesday\n \nThursday".toList, "Friday".toList] ∧
    splitIntoWords (fun c => decide (c ∈ " \t".toList)) "Monday Tuesday\t\tWednesday\n \nThursday\tFriday".toList = ["Monday".toList, "Tuesday".toList, "Wednesday\n".toList, "\nThursday".toList, "Friday".toList] := by
  decide +kernel

/-- Test `endsWithSentenceDelimiter`, `/repo/test/utils/TextUtilsTest.cpp:98-109`. -/
example :
    endsWithSentenceDelimiter "".toList = false ∧
    endsWithSentenceDelimiter "The Fantastic Four".toList = false ∧
    endsWithSentenceDelimiter "The Fantastic Four:".toList = false ∧
    endsWithSentenceDelimiter "\"The Fantastic Four\"".toList = false ∧
    endsWithSentenceDelimiter "The Fantastic Four.".toList = true ∧
    endsWithSentenceDelimiter "The Fantastic Four?".toList = true ∧
    endsWithSentenceDelimiter "The Fantastic Four!".toList = true ∧
    endsWithSentenceDelimiter "The Fantastic Four.".toList ".!".toList = true ∧
    endsWithSentenceDelimiter "The Fantastic Four!".toList ".!".toList = true ∧
    endsWithSentenceDelimiter "The Fantastic Four?".toList ".!".toList = false := by
  decide +kernel

/-- Test `startsWithUpper`, `/repo/test/utils/TextUtilsTest.cpp:112-117`. -/
example :
    startsWithUpper "".toList = false ∧
    startsWithUpper "big".toList = false ∧
    startsWithUpper "Apple".toList = true ∧
    startsWithUpper "123".toList = false := by
  decide +kernel

/-- Test `createRandomString`, `/repo/test/utils/TextUtilsTest.cpp:120-133`. -/
example (rand : Nat → Nat) :
    createRandomString rand 0 [] alphaNum = .ok [] ∧
    createRandomString rand 0 "foo-".toList alphaNum = .ok "foo-".toList ∧
    (∃ s, createRandomString rand 5 [] alphaNum = .ok s ∧ s.length = 5) ∧
    (∃ s, createRandomString rand 6 "foo-".toList alphaNum = .ok s ∧ s.length = 10 ∧ "foo-".toList <+: s) :=
  ⟨rfl, rfl, ⟨_, rfl, rfl⟩, ⟨_, rfl, rfl, List.prefix_append _ _⟩⟩

/-- Test `escapeJson`, `/repo/test/utils/TextUtilsTest.cpp:136-151`. -/
example :
    escapeJson "".toList = "".toList ∧
    escapeJson "James Bond".toList = "James Bond".toList ∧
    escapeJson "James\tBond".toList = "James\\tBond".toList ∧
    escapeJson "James \"Bond\"".toList = "James \\\"Bond\\\"".toList ∧
    escapeJson "James\t\"Bond\"".toList = "James\\t\\\"Bond\\\"".toList := by
  decide +kernel

/-- Test `shorten`, `/repo/test/utils/TextUtilsTest.cpp:154-175`. -/
example :
    shorten "".toList 0 = "".toList ∧
    shorten "".toList 12 = "".toList ∧
    shorten "This is a long text".toList 0 = "...".toList ∧
    shorten "This is a long text".toList 4 = "This...".toList ∧
    shorten "This is a long text".toList 18 = "This is a long tex...".toList ∧
    shorten "This is a long text".toList 19 = "This is a long text".toList ∧
    shorten "This is a long text".toList 50 = "This is a long text".toList := by
  decide +kernel

/-- Test `strip`, `/repo/test/utils/TextUtilsTest.cpp:178-196`. -/
example :
    (strip "".toList).isUb = true ∧
    strip "Washington".toList = .ok "Washington".toList ∧
    strip "Washington  ".toList = .ok "Washington".toList ∧
    strip "  Washington".toList = .ok "Washington".toList ∧
    strip "\t Washington\t \n ".toList = .ok "Washington".toList ∧
    strip "\tNew York  ".toList = .ok "New York".toList := by
  decide +kernel

/-- Test `wrap`, `/repo/test/utils/TextUtilsTest.cpp:199-212`. -/
example :
    wrap "".toList 100 0 = "".toList ∧
    wrap "".toList 100 3 = "   ".toList ∧
    wrap "Lorem ipsum dolor sit amet, consetetur sadipscing elitr, sed diam.".toList 20 0 = "Lorem ipsum dolor\nsit amet, consetetur\nsadipscing elitr,\nsed diam.".toList ∧
    wrap "Lorem ipsum dolor sit amet, consetetur sadipscing elitr, sed diam.".toList 35 3 = "   Lorem ipsum dolor sit amet,\n   consetetur sadipscing elitr, sed\n   diam.".toList := by
  decide +kernel

/-- Test `join`, `/repo/test/utils/TextUtilsTest.cpp:215-230`. -/
example :
    join [] ", ".toList = "".toList ∧
    join ["one".toList, "two".toList, "three".toList] "".toList = "onetwothree".toList ∧
    join ["one".toList, "two".toList, "three".toList] ",".toList = "one,two,three".toList ∧
    join ["one".toList, "two".toList, "three".toList] "+-".toList = "one+-two+-three".toList ∧
    join ["one".toList, "two".toList, "three".toList] " ".toList = "one two three".toList := by
  decide +kernel

end Verif.Conformance.TextUtils
