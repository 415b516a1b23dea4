/-!
# Digit tables copied from strtk.hpp by tools/gen_tables.py
-/

namespace Strtk.Number

/-- Part 0 of `rev3Digit`. -/
def rev3Digit_0 : List (BitVec 8) := [48, 48, 48, 48, 48, 49, 48, 48, 50, 48, 48, 51, 48, 48, 52, 48, 48, 53, 48, 48, 54, 48, 48, 55, 48, 48, 56, 48, 48, 57, 48, 49, 48, 48, 49, 49, 48, 49, 50, 48, 49, 51, 48, 49, 52, 48, 49, 53, 48, 49, 54, 48, 49, 55, 48, 49, 56, 48, 49, 57, 48, 50, 48, 48, 50, 49, 48, 50, 50, 48, 50, 51, 48, 50, 52]

/-- Part 1 of `rev3Digit`. -/
def rev3Digit_1 : List (BitVec 8) := [48, 50, 53, 48, 50, 54, 48, 50, 55, 48, 50, 56, 48, 50, 57, 48, 51, 48, 48, 51, 49, 48, 51, 50, 48, 51, 51, 48, 51, 52, 48, 51, 53, 48, 51, 54, 48, 51, 55, 48, 51, 56, 48, 51, 57, 48, 52, 48, 48, 52, 49, 48, 52, 50, 48, 52, 51, 48, 52, 52, 48, 52, 53, 48, 52, 54, 48, 52, 55, 48, 52, 56, 48, 52, 57]

/-- Part 2 of `rev3Digit`. -/
def rev3Digit_2 : List (BitVec 8) := [48, 53, 48, 48, 53, 49, 48, 53, 50, 48, 53, 51, 48, 53, 52, 48, 53, 53, 48, 53, 54, 48, 53, 55, 48, 53, 56, 48, 53, 57, 48, 54, 48, 48, 54, 49, 48, 54, 50, 48, 54, 51, 48, 54, 52, 48, 54, 53, 48, 54, 54, 48, 54, 55, 48, 54, 56, 48, 54, 57, 48, 55, 48, 48, 55, 49, 48, 55, 50, 48, 55, 51, 48, 55, 52]

/-- Part 3 of `rev3Digit`. -/
def rev3Digit_3 : List (BitVec 8) := [48, 55, 53, 48, 55, 54, 48, 55, 55, 48, 55, 56, 48, 55, 57, 48, 56, 48, 48, 56, 49, 48, 56, 50, 48, 56, 51, 48, 56, 52, 48, 56, 53, 48, 56, 54, 48, 56, 55, 48, 56, 56, 48, 56, 57, 48, 57, 48, 48, 57, 49, 48, 57, 50, 48, 57, 51, 48, 57, 52, 48, 57, 53, 48, 57, 54, 48, 57, 55, 48, 57, 56, 48, 57, 57]

/-- Part 4 of `rev3Digit`. -/
def rev3Digit_4 : List (BitVec 8) := [49, 48, 48, 49, 48, 49, 49, 48, 50, 49, 48, 51, 49, 48, 52, 49, 48, 53, 49, 48, 54, 49, 48, 55, 49, 48, 56, 49, 48, 57, 49, 49, 48, 49, 49, 49, 49, 49, 50, 49, 49, 51, 49, 49, 52, 49, 49, 53, 49, 49, 54, 49, 49, 55, 49, 49, 56, 49, 49, 57, 49, 50, 48, 49, 50, 49, 49, 50, 50, 49, 50, 51, 49, 50, 52]

/-- Part 5 of `rev3Digit`. -/
def rev3Digit_5 : List (BitVec 8) := [49, 50, 53, 49, 50, 54, 49, 50, 55, 49, 50, 56, 49, 50, 57, 49, 51, 48, 49, 51, 49, 49, 51, 50, 49, 51, 51, 49, 51, 52, 49, 51, 53, 49, 51, 54, 49, 51, 55, 49, 51, 56, 49, 51, 57, 49, 52, 48, 49, 52, 49, 49, 52, 50, 49, 52, 51, 49, 52, 52, 49, 52, 53, 49, 52, 54, 49, 52, 55, 49, 52, 56, 49, 52, 57]

/-- Part 6 of `rev3Digit`. -/
def rev3Digit_6 : List (BitVec 8) := [49, 53, 48, 49, 53, 49, 49, 53, 50, 49, 53, 51, 49, 53, 52, 49, 53, 53, 49, 53, 54, 49, 53, 55, 49, 53, 56, 49, 53, 57, 49, 54, 48, 49, 54, 49, 49, 54, 50, 49, 54, 51, 49, 54, 52, 49, 54, 53, 49, 54, 54, 49, 54, 55, 49, 54, 56, 49, 54, 57, 49, 55, 48, 49, 55, 49, 49, 55, 50, 49, 55, 51, 49, 55, 52]

/-- Part 7 of `rev3Digit`. -/
def rev3Digit_7 : List (BitVec 8) := [49, 55, 53, 49, 55, 54, 49, 55, 55, 49, 55, 56, 49, 55, 57, 49, 56, 48, 49, 56, 49, 49, 56, 50, 49, 56, 51, 49, 56, 52, 49, 56, 53, 49, 56, 54, 49, 56, 55, 49, 56, 56, 49, 56, 57, 49, 57, 48, 49, 57, 49, 49, 57, 50, 49, 57, 51, 49, 57, 52, 49, 57, 53, 49, 57, 54, 49, 57, 55, 49, 57, 56, 49, 57, 57]

/-- Part 8 of `rev3Digit`. -/
def rev3Digit_8 : List (BitVec 8) := [50, 48, 48, 50, 48, 49, 50, 48, 50, 50, 48, 51, 50, 48, 52, 50, 48, 53, 50, 48, 54, 50, 48, 55, 50, 48, 56, 50, 48, 57, 50, 49, 48, 50, 49, 49, 50, 49, 50, 50, 49, 51, 50, 49, 52, 50, 49, 53, 50, 49, 54, 50, 49, 55, 50, 49, 56, 50, 49, 57, 50, 50, 48, 50, 50, 49, 50, 50, 50, 50, 50, 51, 50, 50, 52]

/-- Part 9 of `rev3Digit`. -/
def rev3Digit_9 : List (BitVec 8) := [50, 50, 53, 50, 50, 54, 50, 50, 55, 50, 50, 56, 50, 50, 57, 50, 51, 48, 50, 51, 49, 50, 51, 50, 50, 51, 51, 50, 51, 52, 50, 51, 53, 50, 51, 54, 50, 51, 55, 50, 51, 56, 50, 51, 57, 50, 52, 48, 50, 52, 49, 50, 52, 50, 50, 52, 51, 50, 52, 52, 50, 52, 53, 50, 52, 54, 50, 52, 55, 50, 52, 56, 50, 52, 57]

/-- Part 10 of `rev3Digit`. -/
def rev3Digit_10 : List (BitVec 8) := [50, 53, 48, 50, 53, 49, 50, 53, 50, 50, 53, 51, 50, 53, 52, 50, 53, 53, 50, 53, 54, 50, 53, 55, 50, 53, 56, 50, 53, 57, 50, 54, 48, 50, 54, 49, 50, 54, 50, 50, 54, 51, 50, 54, 52, 50, 54, 53, 50, 54, 54, 50, 54, 55, 50, 54, 56, 50, 54, 57, 50, 55, 48, 50, 55, 49, 50, 55, 50, 50, 55, 51, 50, 55, 52]

/-- Part 11 of `rev3Digit`. -/
def rev3Digit_11 : List (BitVec 8) := [50, 55, 53, 50, 55, 54, 50, 55, 55, 50, 55, 56, 50, 55, 57, 50, 56, 48, 50, 56, 49, 50, 56, 50, 50, 56, 51, 50, 56, 52, 50, 56, 53, 50, 56, 54, 50, 56, 55, 50, 56, 56, 50, 56, 57, 50, 57, 48, 50, 57, 49, 50, 57, 50, 50, 57, 51, 50, 57, 52, 50, 57, 53, 50, 57, 54, 50, 57, 55, 50, 57, 56, 50, 57, 57]

/-- Part 12 of `rev3Digit`. -/
def rev3Digit_12 : List (BitVec 8) := [51, 48, 48, 51, 48, 49, 51, 48, 50, 51, 48, 51, 51, 48, 52, 51, 48, 53, 51, 48, 54, 51, 48, 55, 51, 48, 56, 51, 48, 57, 51, 49, 48, 51, 49, 49, 51, 49, 50, 51, 49, 51, 51, 49, 52, 51, 49, 53, 51, 49, 54, 51, 49, 55, 51, 49, 56, 51, 49, 57, 51, 50, 48, 51, 50, 49, 51, 50, 50, 51, 50, 51, 51, 50, 52]

/-- Part 13 of `rev3Digit`. -/
def rev3Digit_13 : List (BitVec 8) := [51, 50, 53, 51, 50, 54, 51, 50, 55, 51, 50, 56, 51, 50, 57, 51, 51, 48, 51, 51, 49, 51, 51, 50, 51, 51, 51, 51, 51, 52, 51, 51, 53, 51, 51, 54, 51, 51, 55, 51, 51, 56, 51, 51, 57, 51, 52, 48, 51, 52, 49, 51, 52, 50, 51, 52, 51, 51, 52, 52, 51, 52, 53, 51, 52, 54, 51, 52, 55, 51, 52, 56, 51, 52, 57]

/-- Part 14 of `rev3Digit`. -/
def rev3Digit_14 : List (BitVec 8) := [51, 53, 48, 51, 53, 49, 51, 53, 50, 51, 53, 51, 51, 53, 52, 51, 53, 53, 51, 53, 54, 51, 53, 55, 51, 53, 56, 51, 53, 57, 51, 54, 48, 51, 54, 49, 51, 54, 50, 51, 54, 51, 51, 54, 52, 51, 54, 53, 51, 54, 54, 51, 54, 55, 51, 54, 56, 51, 54, 57, 51, 55, 48, 51, 55, 49, 51, 55, 50, 51, 55, 51, 51, 55, 52]

/-- Part 15 of `rev3Digit`. -/
def rev3Digit_15 : List (BitVec 8) := [51, 55, 53, 51, 55, 54, 51, 55, 55, 51, 55, 56, 51, 55, 57, 51, 56, 48, 51, 56, 49, 51, 56, 50, 51, 56, 51, 51, 56, 52, 51, 56, 53, 51, 56, 54, 51, 56, 55, 51, 56, 56, 51, 56, 57, 51, 57, 48, 51, 57, 49, 51, 57, 50, 51, 57, 51, 51, 57, 52, 51, 57, 53, 51, 57, 54, 51, 57, 55, 51, 57, 56, 51, 57, 57]

/-- Part 16 of `rev3Digit`. -/
def rev3Digit_16 : List (BitVec 8) := [52, 48, 48, 52, 48, 49, 52, 48, 50, 52, 48, 51, 52, 48, 52, 52, 48, 53, 52, 48, 54, 52, 48, 55, 52, 48, 56, 52, 48, 57, 52, 49, 48, 52, 49, 49, 52, 49, 50, 52, 49, 51, 52, 49, 52, 52, 49, 53, 52, 49, 54, 52, 49, 55, 52, 49, 56, 52, 49, 57, 52, 50, 48, 52, 50, 49, 52, 50, 50, 52, 50, 51, 52, 50, 52]

/-- Part 17 of `rev3Digit`. -/
def rev3Digit_17 : List (BitVec 8) := [52, 50, 53, 52, 50, 54, 52, 50, 55, 52, 50, 56, 52, 50, 57, 52, 51, 48, 52, 51, 49, 52, 51, 50, 52, 51, 51, 52, 51, 52, 52, 51, 53, 52, 51, 54, 52, 51, 55, 52, 51, 56, 52, 51, 57, 52, 52, 48, 52, 52, 49, 52, 52, 50, 52, 52, 51, 52, 52, 52, 52, 52, 53, 52, 52, 54, 52, 52, 55, 52, 52, 56, 52, 52, 57]

/-- Part 18 of `rev3Digit`. -/
def rev3Digit_18 : List (BitVec 8) := [52, 53, 48, 52, 53, 49, 52, 53, 50, 52, 53, 51, 52, 53, 52, 52, 53, 53, 52, 53, 54, 52, 53, 55, 52, 53, 56, 52, 53, 57, 52, 54, 48, 52, 54, 49, 52, 54, 50, 52, 54, 51, 52, 54, 52, 52, 54, 53, 52, 54, 54, 52, 54, 55, 52, 54, 56, 52, 54, 57, 52, 55, 48, 52, 55, 49, 52, 55, 50, 52, 55, 51, 52, 55, 52]

/-- Part 19 of `rev3Digit`. -/
def rev3Digit_19 : List (BitVec 8) := [52, 55, 53, 52, 55, 54, 52, 55, 55, 52, 55, 56, 52, 55, 57, 52, 56, 48, 52, 56, 49, 52, 56, 50, 52, 56, 51, 52, 56, 52, 52, 56, 53, 52, 56, 54, 52, 56, 55, 52, 56, 56, 52, 56, 57, 52, 57, 48, 52, 57, 49, 52, 57, 50, 52, 57, 51, 52, 57, 52, 52, 57, 53, 52, 57, 54, 52, 57, 55, 52, 57, 56, 52, 57, 57]

/-- Part 20 of `rev3Digit`. -/
def rev3Digit_20 : List (BitVec 8) := [53, 48, 48, 53, 48, 49, 53, 48, 50, 53, 48, 51, 53, 48, 52, 53, 48, 53, 53, 48, 54, 53, 48, 55, 53, 48, 56, 53, 48, 57, 53, 49, 48, 53, 49, 49, 53, 49, 50, 53, 49, 51, 53, 49, 52, 53, 49, 53, 53, 49, 54, 53, 49, 55, 53, 49, 56, 53, 49, 57, 53, 50, 48, 53, 50, 49, 53, 50, 50, 53, 50, 51, 53, 50, 52]

/-- Part 21 of `rev3Digit`. -/
def rev3Digit_21 : List (BitVec 8) := [53, 50, 53, 53, 50, 54, 53, 50, 55, 53, 50, 56, 53, 50, 57, 53, 51, 48, 53, 51, 49, 53, 51, 50, 53, 51, 51, 53, 51, 52, 53, 51, 53, 53, 51, 54, 53, 51, 55, 53, 51, 56, 53, 51, 57, 53, 52, 48, 53, 52, 49, 53, 52, 50, 53, 52, 51, 53, 52, 52, 53, 52, 53, 53, 52, 54, 53, 52, 55, 53, 52, 56, 53, 52, 57]

/-- Part 22 of `rev3Digit`. -/
def rev3Digit_22 : List (BitVec 8) := [53, 53, 48, 53, 53, 49, 53, 53, 50, 53, 53, 51, 53, 53, 52, 53, 53, 53, 53, 53, 54, 53, 53, 55, 53, 53, 56, 53, 53, 57, 53, 54, 48, 53, 54, 49, 53, 54, 50, 53, 54, 51, 53, 54, 52, 53, 54, 53, 53, 54, 54, 53, 54, 55, 53, 54, 56, 53, 54, 57, 53, 55, 48, 53, 55, 49, 53, 55, 50, 53, 55, 51, 53, 55, 52]

/-- Part 23 of `rev3Digit`. -/
def rev3Digit_23 : List (BitVec 8) := [53, 55, 53, 53, 55, 54, 53, 55, 55, 53, 55, 56, 53, 55, 57, 53, 56, 48, 53, 56, 49, 53, 56, 50, 53, 56, 51, 53, 56, 52, 53, 56, 53, 53, 56, 54, 53, 56, 55, 53, 56, 56, 53, 56, 57, 53, 57, 48, 53, 57, 49, 53, 57, 50, 53, 57, 51, 53, 57, 52, 53, 57, 53, 53, 57, 54, 53, 57, 55, 53, 57, 56, 53, 57, 57]

/-- Part 24 of `rev3Digit`. -/
def rev3Digit_24 : List (BitVec 8) := [54, 48, 48, 54, 48, 49, 54, 48, 50, 54, 48, 51, 54, 48, 52, 54, 48, 53, 54, 48, 54, 54, 48, 55, 54, 48, 56, 54, 48, 57, 54, 49, 48, 54, 49, 49, 54, 49, 50, 54, 49, 51, 54, 49, 52, 54, 49, 53, 54, 49, 54, 54, 49, 55, 54, 49, 56, 54, 49, 57, 54, 50, 48, 54, 50, 49, 54, 50, 50, 54, 50, 51, 54, 50, 52]

/-- Part 25 of `rev3Digit`. -/
def rev3Digit_25 : List (BitVec 8) := [54, 50, 53, 54, 50, 54, 54, 50, 55, 54, 50, 56, 54, 50, 57, 54, 51, 48, 54, 51, 49, 54, 51, 50, 54, 51, 51, 54, 51, 52, 54, 51, 53, 54, 51, 54, 54, 51, 55, 54, 51, 56, 54, 51, 57, 54, 52, 48, 54, 52, 49, 54, 52, 50, 54, 52, 51, 54, 52, 52, 54, 52, 53, 54, 52, 54, 54, 52, 55, 54, 52, 56, 54, 52, 57]

/-- Part 26 of `rev3Digit`. -/
def rev3Digit_26 : List (BitVec 8) := [54, 53, 48, 54, 53, 49, 54, 53, 50, 54, 53, 51, 54, 53, 52, 54, 53, 53, 54, 53, 54, 54, 53, 55, 54, 53, 56, 54, 53, 57, 54, 54, 48, 54, 54, 49, 54, 54, 50, 54, 54, 51, 54, 54, 52, 54, 54, 53, 54, 54, 54, 54, 54, 55, 54, 54, 56, 54, 54, 57, 54, 55, 48, 54, 55, 49, 54, 55, 50, 54, 55, 51, 54, 55, 52]

/-- Part 27 of `rev3Digit`. -/
def rev3Digit_27 : List (BitVec 8) := [54, 55, 53, 54, 55, 54, 54, 55, 55, 54, 55, 56, 54, 55, 57, 54, 56, 48, 54, 56, 49, 54, 56, 50, 54, 56, 51, 54, 56, 52, 54, 56, 53, 54, 56, 54, 54, 56, 55, 54, 56, 56, 54, 56, 57, 54, 57, 48, 54, 57, 49, 54, 57, 50, 54, 57, 51, 54, 57, 52, 54, 57, 53, 54, 57, 54, 54, 57, 55, 54, 57, 56, 54, 57, 57]

/-- Part 28 of `rev3Digit`. -/
def rev3Digit_28 : List (BitVec 8) := [55, 48, 48, 55, 48, 49, 55, 48, 50, 55, 48, 51, 55, 48, 52, 55, 48, 53, 55, 48, 54, 55, 48, 55, 55, 48, 56, 55, 48, 57, 55, 49, 48, 55, 49, 49, 55, 49, 50, 55, 49, 51, 55, 49, 52, 55, 49, 53, 55, 49, 54, 55, 49, 55, 55, 49, 56, 55, 49, 57, 55, 50, 48, 55, 50, 49, 55, 50, 50, 55, 50, 51, 55, 50, 52]

/-- Part 29 of `rev3Digit`. -/
def rev3Digit_29 : List (BitVec 8) := [55, 50, 53, 55, 50, 54, 55, 50, 55, 55, 50, 56, 55, 50, 57, 55, 51, 48, 55, 51, 49, 55, 51, 50, 55, 51, 51, 55, 51, 52, 55, 51, 53, 55, 51, 54, 55, 51, 55, 55, 51, 56, 55, 51, 57, 55, 52, 48, 55, 52, 49, 55, 52, 50, 55, 52, 51, 55, 52, 52, 55, 52, 53, 55, 52, 54, 55, 52, 55, 55, 52, 56, 55, 52, 57]

/-- Part 30 of `rev3Digit`. -/
def rev3Digit_30 : List (BitVec 8) := [55, 53, 48, 55, 53, 49, 55, 53, 50, 55, 53, 51, 55, 53, 52, 55, 53, 53, 55, 53, 54, 55, 53, 55, 55, 53, 56, 55, 53, 57, 55, 54, 48, 55, 54, 49, 55, 54, 50, 55, 54, 51, 55, 54, 52, 55, 54, 53, 55, 54, 54, 55, 54, 55, 55, 54, 56, 55, 54, 57, 55, 55, 48, 55, 55, 49, 55, 55, 50, 55, 55, 51, 55, 55, 52]

/-- Part 31 of `rev3Digit`. -/
def rev3Digit_31 : List (BitVec 8) := [55, 55, 53, 55, 55, 54, 55, 55, 55, 55, 55, 56, 55, 55, 57, 55, 56, 48, 55, 56, 49, 55, 56, 50, 55, 56, 51, 55, 56, 52, 55, 56, 53, 55, 56, 54, 55, 56, 55, 55, 56, 56, 55, 56, 57, 55, 57, 48, 55, 57, 49, 55, 57, 50, 55, 57, 51, 55, 57, 52, 55, 57, 53, 55, 57, 54, 55, 57, 55, 55, 57, 56, 55, 57, 57]

/-- Part 32 of `rev3Digit`. -/
def rev3Digit_32 : List (BitVec 8) := [56, 48, 48, 56, 48, 49, 56, 48, 50, 56, 48, 51, 56, 48, 52, 56, 48, 53, 56, 48, 54, 56, 48, 55, 56, 48, 56, 56, 48, 57, 56, 49, 48, 56, 49, 49, 56, 49, 50, 56, 49, 51, 56, 49, 52, 56, 49, 53, 56, 49, 54, 56, 49, 55, 56, 49, 56, 56, 49, 57, 56, 50, 48, 56, 50, 49, 56, 50, 50, 56, 50, 51, 56, 50, 52]

/-- Part 33 of `rev3Digit`. -/
def rev3Digit_33 : List (BitVec 8) := [56, 50, 53, 56, 50, 54, 56, 50, 55, 56, 50, 56, 56, 50, 57, 56, 51, 48, 56, 51, 49, 56, 51, 50, 56, 51, 51, 56, 51, 52, 56, 51, 53, 56, 51, 54, 56, 51, 55, 56, 51, 56, 56, 51, 57, 56, 52, 48, 56, 52, 49, 56, 52, 50, 56, 52, 51, 56, 52, 52, 56, 52, 53, 56, 52, 54, 56, 52, 55, 56, 52, 56, 56, 52, 57]

/-- Part 34 of `rev3Digit`. -/
def rev3Digit_34 : List (BitVec 8) := [56, 53, 48, 56, 53, 49, 56, 53, 50, 56, 53, 51, 56, 53, 52, 56, 53, 53, 56, 53, 54, 56, 53, 55, 56, 53, 56, 56, 53, 57, 56, 54, 48, 56, 54, 49, 56, 54, 50, 56, 54, 51, 56, 54, 52, 56, 54, 53, 56, 54, 54, 56, 54, 55, 56, 54, 56, 56, 54, 57, 56, 55, 48, 56, 55, 49, 56, 55, 50, 56, 55, 51, 56, 55, 52]

/-- Part 35 of `rev3Digit`. -/
def rev3Digit_35 : List (BitVec 8) := [56, 55, 53, 56, 55, 54, 56, 55, 55, 56, 55, 56, 56, 55, 57, 56, 56, 48, 56, 56, 49, 56, 56, 50, 56, 56, 51, 56, 56, 52, 56, 56, 53, 56, 56, 54, 56, 56, 55, 56, 56, 56, 56, 56, 57, 56, 57, 48, 56, 57, 49, 56, 57, 50, 56, 57, 51, 56, 57, 52, 56, 57, 53, 56, 57, 54, 56, 57, 55, 56, 57, 56, 56, 57, 57]

/-- Part 36 of `rev3Digit`. -/
def rev3Digit_36 : List (BitVec 8) := [57, 48, 48, 57, 48, 49, 57, 48, 50, 57, 48, 51, 57, 48, 52, 57, 48, 53, 57, 48, 54, 57, 48, 55, 57, 48, 56, 57, 48, 57, 57, 49, 48, 57, 49, 49, 57, 49, 50, 57, 49, 51, 57, 49, 52, 57, 49, 53, 57, 49, 54, 57, 49, 55, 57, 49, 56, 57, 49, 57, 57, 50, 48, 57, 50, 49, 57, 50, 50, 57, 50, 51, 57, 50, 52]

/-- Part 37 of `rev3Digit`. -/
def rev3Digit_37 : List (BitVec 8) := [57, 50, 53, 57, 50, 54, 57, 50, 55, 57, 50, 56, 57, 50, 57, 57, 51, 48, 57, 51, 49, 57, 51, 50, 57, 51, 51, 57, 51, 52, 57, 51, 53, 57, 51, 54, 57, 51, 55, 57, 51, 56, 57, 51, 57, 57, 52, 48, 57, 52, 49, 57, 52, 50, 57, 52, 51, 57, 52, 52, 57, 52, 53, 57, 52, 54, 57, 52, 55, 57, 52, 56, 57, 52, 57]

/-- Part 38 of `rev3Digit`. -/
def rev3Digit_38 : List (BitVec 8) := [57, 53, 48, 57, 53, 49, 57, 53, 50, 57, 53, 51, 57, 53, 52, 57, 53, 53, 57, 53, 54, 57, 53, 55, 57, 53, 56, 57, 53, 57, 57, 54, 48, 57, 54, 49, 57, 54, 50, 57, 54, 51, 57, 54, 52, 57, 54, 53, 57, 54, 54, 57, 54, 55, 57, 54, 56, 57, 54, 57, 57, 55, 48, 57, 55, 49, 57, 55, 50, 57, 55, 51, 57, 55, 52]

/-- Part 39 of `rev3Digit`. -/
def rev3Digit_39 : List (BitVec 8) := [57, 55, 53, 57, 55, 54, 57, 55, 55, 57, 55, 56, 57, 55, 57, 57, 56, 48, 57, 56, 49, 57, 56, 50, 57, 56, 51, 57, 56, 52, 57, 56, 53, 57, 56, 54, 57, 56, 55, 57, 56, 56, 57, 56, 57, 57, 57, 48, 57, 57, 49, 57, 57, 50, 57, 57, 51, 57, 57, 52, 57, 57, 53, 57, 57, 54, 57, 57, 55, 57, 57, 56, 57, 57, 57]

/-- Part 40 of `rev3Digit`. -/
def rev3Digit_40 : List (BitVec 8) := [0, 0, 0, 0, 0, 0, 0, 0, 0, 0, 0, 0, 0, 0, 0, 0, 0]

/-- The C string literal (16726-16769) with its terminating zero. -/
def rev3Digit : List (BitVec 8) := [
  rev3Digit_0, rev3Digit_1, rev3Digit_2, rev3Digit_3, rev3Digit_4, rev3Digit_5, rev3Digit_6, rev3Digit_7, rev3Digit_8, rev3Digit_9, rev3Digit_10, rev3Digit_11, rev3Digit_12, rev3Digit_13, rev3Digit_14, rev3Digit_15, rev3Digit_16, rev3Digit_17, rev3Digit_18, rev3Digit_19, rev3Digit_20, rev3Digit_21, rev3Digit_22, rev3Digit_23, rev3Digit_24, rev3Digit_25, rev3Digit_26, rev3Digit_27, rev3Digit_28, rev3Digit_29, rev3Digit_30, rev3Digit_31, rev3Digit_32, rev3Digit_33, rev3Digit_34, rev3Digit_35, rev3Digit_36, rev3Digit_37, rev3Digit_38, rev3Digit_39, rev3Digit_40].flatten

/-- Part 0 of `rev2Digit`. -/
def rev2Digit_0 : List (BitVec 8) := [48, 48, 48, 49, 48, 50, 48, 51, 48, 52, 48, 53, 48, 54, 48, 55, 48, 56, 48, 57, 49, 48, 49, 49, 49, 50, 49, 51, 49, 52, 49, 53, 49, 54, 49, 55, 49, 56, 49, 57, 50, 48, 50, 49, 50, 50, 50, 51, 50, 52, 50, 53, 50, 54, 50, 55, 50, 56, 50, 57, 51, 48, 51, 49, 51, 50, 51, 51, 51, 52, 51, 53, 51, 54, 51]

/-- Part 1 of `rev2Digit`. -/
def rev2Digit_1 : List (BitVec 8) := [55, 51, 56, 51, 57, 52, 48, 52, 49, 52, 50, 52, 51, 52, 52, 52, 53, 52, 54, 52, 55, 52, 56, 52, 57, 53, 48, 53, 49, 53, 50, 53, 51, 53, 52, 53, 53, 53, 54, 53, 55, 53, 56, 53, 57, 54, 48, 54, 49, 54, 50, 54, 51, 54, 52, 54, 53, 54, 54, 54, 55, 54, 56, 54, 57, 55, 48, 55, 49, 55, 50, 55, 51, 55, 52]

/-- Part 2 of `rev2Digit`. -/
def rev2Digit_2 : List (BitVec 8) := [55, 53, 55, 54, 55, 55, 55, 56, 55, 57, 56, 48, 56, 49, 56, 50, 56, 51, 56, 52, 56, 53, 56, 54, 56, 55, 56, 56, 56, 57, 57, 48, 57, 49, 57, 50, 57, 51, 57, 52, 57, 53, 57, 54, 57, 55, 57, 56, 57, 57, 0, 0, 0, 0, 0, 0, 0, 0, 0, 0, 0, 0, 0, 0, 0, 0, 0]

/-- The C string literal (16771-16779) with its terminating zero. -/
def rev2Digit : List (BitVec 8) := [
  rev2Digit_0, rev2Digit_1, rev2Digit_2].flatten

end Strtk.Number
