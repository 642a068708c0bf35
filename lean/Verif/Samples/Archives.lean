import Verif.Model.Basic
/-!
# Concrete archives, used to show that hypotheses are met and that claims fail
-/

namespace AsyncZip.Samples

/-- One stored entry `a.txt` containing `hi`, with an unknown extra field, an entry comment `ok` and an archive comment
`c`; written by Python's `zipfile`. -/
def one : Bytes := [
    80, 75, 3, 4, 20, 0, 0, 0, 0, 0, 131, 24, 34, 80, 172, 42, 147, 216, 2, 0, 0, 0, 2, 0,
    0, 0, 5, 0, 6, 0, 97, 46, 116, 120, 116, 153, 119, 2, 0, 1, 2, 104, 105, 80, 75, 1, 2, 20,
    3, 20, 0, 0, 0, 0, 0, 131, 24, 34, 80, 172, 42, 147, 216, 2, 0, 0, 0, 2, 0, 0, 0, 5,
    0, 6, 0, 2, 0, 0, 0, 0, 0, 0, 0, 164, 1, 0, 0, 0, 0, 97, 46, 116, 120, 116, 153, 119,
    2, 0, 1, 2, 111, 107, 80, 75, 5, 6, 0, 0, 0, 0, 1, 0, 1, 0, 59, 0, 0, 0, 43, 0,
    0, 0, 1, 0, 99]

/-- `one` with the entry comment length set to 255, more than there is. -/
def truncated : Bytes := [
    80, 75, 3, 4, 20, 0, 0, 0, 0, 0, 131, 24, 34, 80, 172, 42, 147, 216, 2, 0, 0, 0, 2, 0,
    0, 0, 5, 0, 6, 0, 97, 46, 116, 120, 116, 153, 119, 2, 0, 1, 2, 104, 105, 80, 75, 1, 2, 20,
    3, 20, 0, 0, 0, 0, 0, 131, 24, 34, 80, 172, 42, 147, 216, 2, 0, 0, 0, 2, 0, 0, 0, 5,
    0, 6, 0, 255, 0, 0, 0, 0, 0, 0, 0, 164, 1, 0, 0, 0, 0, 97, 46, 116, 120, 116, 153, 119,
    2, 0, 1, 2, 111, 107, 80, 75, 5, 6, 0, 0, 0, 0, 1, 0, 1, 0, 59, 0, 0, 0, 43, 0,
    0, 0, 1, 0, 99]

/-- `one` with the size of the extra field block set to 200, more than there is. -/
def overlong : Bytes := [
    80, 75, 3, 4, 20, 0, 0, 0, 0, 0, 131, 24, 34, 80, 172, 42, 147, 216, 2, 0, 0, 0, 2, 0,
    0, 0, 5, 0, 6, 0, 97, 46, 116, 120, 116, 153, 119, 2, 0, 1, 2, 104, 105, 80, 75, 1, 2, 20,
    3, 20, 0, 0, 0, 0, 0, 131, 24, 34, 80, 172, 42, 147, 216, 2, 0, 0, 0, 2, 0, 0, 0, 5,
    0, 6, 0, 2, 0, 0, 0, 0, 0, 0, 0, 164, 1, 0, 0, 0, 0, 97, 46, 116, 120, 116, 153, 119,
    200, 0, 1, 2, 111, 107, 80, 75, 5, 6, 0, 0, 0, 0, 1, 0, 1, 0, 59, 0, 0, 0, 43, 0,
    0, 0, 1, 0, 99]

/-- A ZIP64 archive declaring 2^64-1 entries. -/
def huge : Bytes := [
    80, 75, 6, 6, 44, 0, 0, 0, 0, 0, 0, 0, 45, 0, 45, 0, 0, 0, 0, 0, 0, 0, 0, 0,
    255, 255, 255, 255, 255, 255, 255, 255, 255, 255, 255, 255, 255, 255, 255, 255, 0, 0, 0, 0, 0, 0, 0, 0,
    0, 0, 0, 0, 0, 0, 0, 0, 80, 75, 6, 7, 0, 0, 0, 0, 0, 0, 0, 0, 0, 0, 0, 0,
    1, 0, 0, 0, 80, 75, 5, 6, 0, 0, 0, 0, 255, 255, 255, 255, 0, 0, 0, 0, 0, 0, 0, 0,
    0, 0]

/-- A ZIP64 locator pointing at 2^64-1. -/
def farLocator : Bytes := [
    80, 75, 6, 7, 0, 0, 0, 0, 255, 255, 255, 255, 255, 255, 255, 255, 1, 0, 0, 0, 80, 75, 5, 6,
    0, 0, 0, 0, 0, 0, 0, 0, 0, 0, 0, 0, 0, 0, 0, 0, 0, 0]

end AsyncZip.Samples
