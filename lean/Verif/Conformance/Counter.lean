import Verif.Model.Counter

/-!
# The unit tests of `/repo/test/utils/CounterTest.cpp`, run on the model

These examples are no proofs of properties.  They check that the model of `Counter.cpp` gives the values the
authors of the program expect.  A counter is given by its entries after the assignments of the test so far.
-/

namespace Verif.Conformance.Counter

open Verif.Counter

/-- Test `DoubleCounterTest.mostFreq`, `/repo/test/utils/CounterTest.cpp:30-63`. -/
example :
    (Counter.mostFreq 0 ([] : Entries ℚ)).isThrow = true ∧
    Counter.mostFreq 0 ([(0.4, 1), (1.7, 7), (2.3, 3)] : Entries ℚ) = .ok 1.7 ∧
    Counter.mostFreq 0 ([(0.4, 1), (1.7, 7), (2.3, 6)] : Entries ℚ) = .ok 1.7 ∧
    Counter.mostFreq 0 ([(0.4, 1), (1.7, 7), (2.3, 8)] : Entries ℚ) = .ok 2.3 ∧
    Counter.mostFreq 0 ([(0.4, 1), (1.7, 7), (2.3, 8), (6.1, 5)] : Entries ℚ) = .ok 2.3 ∧
    Counter.mostFreq 0 ([(0.4, 1), (1.7, 7), (2.3, 8), (6.1, 9)] : Entries ℚ) = .ok 6.1 ∧
    Counter.mostFreq 0 ([(0.4, 1), (1.7, 7), (2.3, 8), (6.1, 4)] : Entries ℚ) = .ok 2.3 ∧
    Counter.mostFreq 0 ([(0.4, 1), (1.7, 0), (2.3, 0), (6.1, 0)] : Entries ℚ) = .ok 0.4 ∧
    (Counter.mostFreq 0 ([(0.4, 0), (1.7, 0), (2.3, 0), (6.1, 0)] : Entries ℚ)).isThrow = true := by
  decide +kernel

/-- Test `DoubleCounterTest.mostFreqCount`, `/repo/test/utils/CounterTest.cpp:66-96`. -/
example :
    (Counter.mostFreqCount 0 ([] : Entries ℚ)).isThrow = true ∧
    Counter.mostFreqCount 0 ([(0.7, 5), (2.5, 2), (3.1, 1)] : Entries ℚ) = .ok 5 ∧
    Counter.mostFreqCount 0 ([(0.7, 5), (2.5, 4), (3.1, 1)] : Entries ℚ) = .ok 5 ∧
    Counter.mostFreqCount 0 ([(0.7, 5), (2.5, 8), (3.1, 1)] : Entries ℚ) = .ok 8 ∧
    Counter.mostFreqCount 0 ([(0.7, 5), (2.5, 8), (3.1, 1), (6.3, 9)] : Entries ℚ) = .ok 9 ∧
    Counter.mostFreqCount 0 ([(0.7, 5), (2.5, 8), (3.1, 1), (6.3, 4)] : Entries ℚ) = .ok 8 ∧
    Counter.mostFreqCount 0 ([(0.7, 0), (2.5, 0), (3.1, 1), (6.3, 0)] : Entries ℚ) = .ok 1 ∧
    (Counter.mostFreqCount 0 ([(0.7, 0), (2.5, 0), (3.1, 0), (6.3, 0)] : Entries ℚ)).isThrow = true := by
  decide +kernel

/-- Test `DoubleCounterTest.mostFreqAndCount`, `/repo/test/utils/CounterTest.cpp:99-141`. -/
example :
    (Counter.mostFreqAndCount 0 ([] : Entries ℚ)).isThrow = true ∧
    Counter.mostFreqAndCount 0 ([(4.5, 3), (2.1, 6), (4.7, 7)] : Entries ℚ) = .ok (4.7, 7) ∧
    Counter.mostFreqAndCount 0 ([(4.5, 9), (2.1, 6), (4.7, 7)] : Entries ℚ) = .ok (4.5, 9) ∧
    Counter.mostFreqAndCount 0 ([(4.5, 8), (2.1, 6), (4.7, 7)] : Entries ℚ) = .ok (4.5, 8) ∧
    Counter.mostFreqAndCount 0 ([(4.5, 3), (2.1, 6), (4.7, 7)] : Entries ℚ) = .ok (4.7, 7) ∧
    Counter.mostFreqAndCount 0 ([(4.5, 3), (2.1, 6), (4.7, 7), (2.2, 9)] : Entries ℚ) = .ok (2.2, 9) ∧
    Counter.mostFreqAndCount 0 ([(4.5, 3), (2.1, 0), (4.7, 0), (2.2, 0)] : Entries ℚ) = .ok (4.5, 3) ∧
    (Counter.mostFreqAndCount 0 ([(4.5, 0), (2.1, 0), (4.7, 0), (2.2, 0)] : Entries ℚ)).isThrow = true := by
  decide +kernel

/-- Test `DoubleCounterTest.max`, `/repo/test/utils/CounterTest.cpp:144-173`. -/
example :
    (Counter.max ([] : Entries ℚ)).isThrow = true ∧
    Counter.max ([(4.5, 3), (2.1, 6), (4.7, 2)] : Entries ℚ) = .ok 4.7 ∧
    Counter.max ([(4.5, 3), (2.1, 6), (4.7, 8)] : Entries ℚ) = .ok 4.7 ∧
    Counter.max ([(4.5, 3), (2.1, 6), (4.7, 1)] : Entries ℚ) = .ok 4.7 ∧
    Counter.max ([(4.5, 3), (2.1, 6), (4.7, 0)] : Entries ℚ) = .ok 4.5 ∧
    Counter.max ([(4.5, 3), (2.1, 6), (4.7, 0), (5.2, 1)] : Entries ℚ) = .ok 5.2 ∧
    Counter.max ([(4.5, 3), (2.1, 0), (4.7, 0), (5.2, 0)] : Entries ℚ) = .ok 4.5 ∧
    (Counter.max ([(4.5, 0), (2.1, 0), (4.7, 0), (5.2, 0)] : Entries ℚ)).isThrow = true := by
  decide +kernel

/-- Test `DoubleCounterTest.sumCounts`, `/repo/test/utils/CounterTest.cpp:176-205`. -/
example :
    Counter.sumCounts ([] : Entries ℚ) = 0 ∧
    Counter.sumCounts ([(4.5, 3), (2.1, 6), (4.7, 2)] : Entries ℚ) = 11 ∧
    Counter.sumCounts ([(4.5, 3), (2.1, 6), (4.7, 8)] : Entries ℚ) = 17 ∧
    Counter.sumCounts ([(4.5, 3), (2.1, 6), (4.7, 1)] : Entries ℚ) = 10 ∧
    Counter.sumCounts ([(4.5, 3), (2.1, 6), (4.7, 0)] : Entries ℚ) = 9 ∧
    Counter.sumCounts ([(4.5, 3), (2.1, 6), (4.7, 0), (5.2, 1)] : Entries ℚ) = 10 ∧
    Counter.sumCounts ([(4.5, 3), (2.1, 0), (4.7, 0), (5.2, 0)] : Entries ℚ) = 3 ∧
    Counter.sumCounts ([(4.5, 0), (2.1, 0), (4.7, 0), (5.2, 0)] : Entries ℚ) = 0 := by
  decide +kernel

/-- Test `StringCounterTest.mostFreq`, `/repo/test/utils/CounterTest.cpp:210-246`. -/
example :
    (Counter.mostFreq "" ([] : Entries String)).isThrow = true ∧
    Counter.mostFreq "" ([("Iron Man", 2), ("Pepper Potts", 7), ("Captain Marvel", 3)] : Entries String) = .ok "Pepper Potts" ∧
    Counter.mostFreq "" ([("Iron Man", 2), ("Pepper Potts", 7), ("Captain Marvel", 6)] : Entries String) = .ok "Pepper Potts" ∧
    Counter.mostFreq "" ([("Iron Man", 2), ("Pepper Potts", 7), ("Captain Marvel", 8)] : Entries String) = .ok "Captain Marvel" ∧
    Counter.mostFreq "" ([("Iron Man", 5), ("Pepper Potts", 7), ("Captain Marvel", 8)] : Entries String) = .ok "Captain Marvel" ∧
    Counter.mostFreq "" ([("Iron Man", 9), ("Pepper Potts", 7), ("Captain Marvel", 8)] : Entries String) = .ok "Iron Man" ∧
    Counter.mostFreq "" ([("Iron Man", 4), ("Pepper Potts", 7), ("Captain Marvel", 8)] : Entries String) = .ok "Captain Marvel" ∧
    Counter.mostFreq "" ([("Iron Man", 4), ("Pepper Potts", 7), ("Captain Marvel", 8), ("Black Widow", 9)] : Entries String) = .ok "Black Widow" ∧
    Counter.mostFreq "" ([("Iron Man", 4), ("Pepper Potts", 0), ("Captain Marvel", 0), ("Black Widow", 0)] : Entries String) = .ok "Iron Man" ∧
    (Counter.mostFreq "" ([("Iron Man", 0), ("Pepper Potts", 0), ("Captain Marvel", 0), ("Black Widow", 0)] : Entries String)).isThrow = true := by
  decide +kernel

/-- Test `StringCounterTest.mostFreqCount`, `/repo/test/utils/CounterTest.cpp:249-280`. -/
example :
    (Counter.mostFreqCount "" ([] : Entries String)).isThrow = true ∧
    Counter.mostFreqCount "" ([("Buche", 3), ("Eiche", 5), ("Linde", 2)] : Entries String) = .ok 5 ∧
    Counter.mostFreqCount "" ([("Buche", 3), ("Eiche", 5), ("Linde", 4)] : Entries String) = .ok 5 ∧
    Counter.mostFreqCount "" ([("Buche", 3), ("Eiche", 5), ("Linde", 6)] : Entries String) = .ok 6 ∧
    Counter.mostFreqCount "" ([("Buche", 8), ("Eiche", 5), ("Linde", 6)] : Entries String) = .ok 8 ∧
    Counter.mostFreqCount "" ([("Buche", 3), ("Eiche", 5), ("Linde", 6)] : Entries String) = .ok 6 ∧
    Counter.mostFreqCount "" ([("Buche", 3), ("Eiche", 5), ("Linde", 6), ("Ahorn", 12)] : Entries String) = .ok 12 ∧
    (Counter.mostFreqCount "" ([("Buche", 0), ("Eiche", 0), ("Linde", 0), ("Ahorn", 0)] : Entries String)).isThrow = true := by
  decide +kernel

/-- Test `StringCounterTest.mostFreqAndCount`, `/repo/test/utils/CounterTest.cpp:283-321`. -/
example :
    (Counter.mostFreqAndCount "" ([] : Entries String)).isThrow = true ∧
    Counter.mostFreqAndCount "" ([("USA", 3), ("Germany", 6), ("Sweden", 1), ("France", 8)] : Entries String) = .ok ("France", 8) ∧
    Counter.mostFreqAndCount "" ([("USA", 9), ("Germany", 6), ("Sweden", 1), ("France", 8)] : Entries String) = .ok ("USA", 9) ∧
    Counter.mostFreqAndCount "" ([("USA", 9), ("Germany", 11), ("Sweden", 1), ("France", 8)] : Entries String) = .ok ("Germany", 11) ∧
    Counter.mostFreqAndCount "" ([("USA", 9), ("Germany", 2), ("Sweden", 1), ("France", 8)] : Entries String) = .ok ("USA", 9) ∧
    Counter.mostFreqAndCount "" ([("USA", 0), ("Germany", 2), ("Sweden", 1), ("France", 8)] : Entries String) = .ok ("France", 8) ∧
    (Counter.mostFreqAndCount "" ([("USA", 0), ("Germany", 0), ("Sweden", 0), ("France", 0)] : Entries String)).isThrow = true := by
  decide +kernel

/-- Test `StringCounterTest.sumCounts`, `/repo/test/utils/CounterTest.cpp:324-355`. -/
example :
    Counter.sumCounts ([] : Entries String) = 0 ∧
    Counter.sumCounts ([("Buche", 3), ("Eiche", 5), ("Linde", 2)] : Entries String) = 10 ∧
    Counter.sumCounts ([("Buche", 3), ("Eiche", 5), ("Linde", 4)] : Entries String) = 12 ∧
    Counter.sumCounts ([("Buche", 3), ("Eiche", 5), ("Linde", 6)] : Entries String) = 14 ∧
    Counter.sumCounts ([("Buche", 8), ("Eiche", 5), ("Linde", 6)] : Entries String) = 19 ∧
    Counter.sumCounts ([("Buche", 3), ("Eiche", 5), ("Linde", 6)] : Entries String) = 14 ∧
    Counter.sumCounts ([("Buche", 3), ("Eiche", 5), ("Linde", 6), ("Ahorn", 12)] : Entries String) = 26 ∧
    Counter.sumCounts ([("Buche", 0), ("Eiche", 0), ("Linde", 0), ("Ahorn", 0)] : Entries String) = 0 := by
  decide +kernel

end Verif.Conformance.Counter
