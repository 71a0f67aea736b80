import Verif.Model.SqlText
/-!
# The statement texts as lists of characters

Generated by `/verif/tools/sqltext.py`; `…_eq` are checked by the kernel.  Only needed because the kernel decodes
string literals slowly.
-/

namespace Verif.SqlChars

set_option maxRecDepth 100000

/-- The characters of `SqlText.revSQL`. -/
def revSQL : List Char := ['\n', '\t', '\t', 'S', 'E', 'L', 'E', 'C', 'T', ' ', 'M', 'A', 'X', '(', 'i', 'd', ')', ' ', 'A', 'S', ' ', 'i', 'd', '\n', '\t', '\t', 'F', 'R', 'O', 'M', ' ', 'k', 'i', 'n', 'e']

theorem revSQL_eq : SqlText.revSQL.toList = revSQL :=
  (congrArg String.toList (rfl : SqlText.revSQL = String.ofList revSQL)).trans String.toList_ofList

/-- The characters of `SqlText.listSQL`. -/
def listSQL : List Char := ['\n', '\t', '\t', 'S', 'E', 'L', 'E', 'C', 'T', ' ', 'k', 'v', '.', 'i', 'd', ',', '\n', '\t', '\t', '\t', 'n', 'a', 'm', 'e', ',', '\n', '\t', '\t', '\t', 'C', 'A', 'S', 'E', ' ', 'W', 'H', 'E', 'N', ' ', 'k', 'v', '.', 'c', 'r', 'e', 'a', 't', 'e', 'd', ' ', 'T', 'H', 'E', 'N', ' ', 'k', 'v', '.', 'i', 'd', ' ', 'E', 'L', 'S', 'E', ' ', 'k', 'v', '.', 'c', 'r', 'e', 'a', 't', 'e', '_', 'r', 'e', 'v', 'i', 's', 'i', 'o', 'n', ' ', 'E', 'N', 'D', ' ', 'A', 'S', ' ', 'c', 'r', 'e', 'a', 't', 'e', '_', 'r', 'e', 'v', 'i', 's', 'i', 'o', 'n', ',', '\n', '\t', '\t', '\t', 'l', 'e', 'a', 's', 'e', ',', '\n', '\t', '\t', '\t', 'v', 'a', 'l', 'u', 'e', '\n', '\t', '\t', 'F', 'R', 'O', 'M', ' ', 'k', 'i', 'n', 'e', ' ', 'A', 'S', ' ', 'k', 'v', '\n', '\t', '\t', 'J', 'O', 'I', 'N', ' ', '(', '\n', '\t', '\t', '\t', 'S', 'E', 'L', 'E', 'C', 'T', ' ', 'M', 'A', 'X', '(', 'm', 'k', 'v', '.', 'i', 'd', ')', ' ', 'a', 's', ' ', 'i', 'd', '\n', '\t', '\t', '\t', 'F', 'R', 'O', 'M', ' ', 'k', 'i', 'n', 'e', ' ', 'A', 'S', ' ', 'm', 'k', 'v', '\n', '\t', '\t', '\t', 'W', 'H', 'E', 'R', 'E', '\n', '\t', '\t', '\t', '\t', 'm', 'k', 'v', '.', 'n', 'a', 'm', 'e', ' ', '>', '=', ' ', 'C', 'A', 'S', 'T', '(', '?', ' ', 'A', 'S', ' ', 'T', 'E', 'X', 'T', ')', ' ', 'A', 'N', 'D', ' ', 'm', 'k', 'v', '.', 'n', 'a', 'm', 'e', ' ', '<', ' ', 'C', 'A', 'S', 'T', '(', '?', ' ', 'A', 'S', ' ', 'T', 'E', 'X', 'T', ')', '\n', '\t', '\t', '\t', '\t', 'A', 'N', 'D', ' ', 'm', 'k', 'v', '.', 'i', 'd', ' ', '<', '=', ' ', '?', '\n', '\t', '\t', '\t', 'G', 'R', 'O', 'U', 'P', ' ', 'B', 'Y', ' ', 'm', 'k', 'v', '.', 'n', 'a', 'm', 'e', '\n', '\t', '\t', ')', ' ', 'A', 'S', ' ', 'm', 'a', 'x', 'k', 'v', '\n', '\t', ' ', ' ', ' ', ' ', '\t', 'O', 'N', ' ', 'm', 'a', 'x', 'k', 'v', '.', 'i', 'd', ' ', '=', ' ', 'k', 'v', '.', 'i', 'd', '\n', '\t', '\t', 'W', 'H', 'E', 'R', 'E', ' ', 'k', 'v', '.', 'd', 'e', 'l', 'e', 't', 'e', 'd', ' ', '=', ' ', '0', '\n', '\t', '\t', 'O', 'R', 'D', 'E', 'R', ' ', 'B', 'Y', ' ', 'k', 'v', '.', 'n', 'a', 'm', 'e', ' ', 'A', 'S', 'C', ',', ' ', 'k', 'v', '.', 'i', 'd', ' ', 'A', 'S', 'C']

theorem listSQL_eq : SqlText.listSQL.toList = listSQL :=
  (congrArg String.toList (rfl : SqlText.listSQL = String.ofList listSQL)).trans String.toList_ofList

/-- The characters of `SqlText.listSqlV1_0`. -/
def listSqlV1_0 : List Char := ['\n', '\t', '\t', 'W', 'I', 'T', 'H', ' ', 'm', 'a', 'x', 'k', 'v', ' ', 'A', 'S', ' ', '(', '\n', '\t', '\t', '\t', 'S', 'E', 'L', 'E', 'C', 'T', ' ', 'M', 'A', 'X', '(', 'i', 'd', ')', ' ', 'A', 'S', ' ', 'i', 'd', '\n', '\t', '\t', '\t', 'F', 'R', 'O', 'M', ' ', 'k', 'i', 'n', 'e', '\n', '\t', '\t', '\t', 'W', 'H', 'E', 'R', 'E', ' ', 'n', 'a', 'm', 'e', ' ', '>', '=', ' ', 'C', 'A', 'S', 'T', '(', '?', ' ', 'A', 'S', ' ', 'T', 'E', 'X', 'T', ')', ' ', 'A', 'N', 'D', ' ', 'n', 'a', 'm', 'e', ' ', '<', ' ', 'C', 'A', 'S', 'T', '(', '?', ' ', 'A', 'S', ' ', 'T', 'E', 'X', 'T', ')', '\n', '\t', '\t', '\t', '\t', 'A', 'N', 'D', ' ', 'i', 'd', ' ', '<', '=', ' ', '?', '\n', '\t', '\t', '\t', 'G', 'R', 'O', 'U', 'P', ' ', 'B', 'Y', ' ', 'n', 'a', 'm', 'e', '\n', '\t', '\t', '\t', 'H', 'A', 'V', 'I', 'N', 'G', ' ', 'd', 'e', 'l', 'e', 't', 'e', 'd', ' ', '=', ' ', '0', '\n', '\t', '\t', '\t', 'O', 'R', 'D', 'E', 'R', ' ', 'B', 'Y', ' ', 'n', 'a', 'm', 'e', '\n', '\t', '\t', ')', '\n', '\t', '\t', 'S', 'E', 'L', 'E', 'C', 'T', ' ', 'k', 'v', '.', 'i', 'd', ',', '\n', '\t', '\t', '\t', 'n', 'a', 'm', 'e', ',', '\n', '\t', '\t', '\t', 'C', 'A', 'S', 'E', '\n', '\t', '\t', '\t', '\t', 'W', 'H', 'E', 'N', ' ', 'k', 'v', '.', 'c', 'r', 'e', 'a', 't', 'e', 'd', ' ', 'T', 'H', 'E', 'N', ' ', 'k', 'v', '.', 'i', 'd', '\n', '\t', '\t', '\t', '\t', 'E', 'L', 'S', 'E', ' ', 'k', 'v', '.', 'c', 'r', 'e', 'a', 't', 'e', '_', 'r', 'e', 'v', 'i', 's', 'i', 'o', 'n', '\n', '\t', '\t', '\t', 'E', 'N', 'D', ' ', 'A', 'S', ' ', 'c', 'r', 'e', 'a', 't', 'e', '_', 'r', 'e', 'v', 'i', 's', 'i', 'o', 'n', ',', '\n', '\t', '\t', '\t', 'l', 'e', 'a', 's', 'e', ',', '\n', '\t', '\t', '\t', 'v', 'a', 'l', 'u', 'e', '\n', '\t', '\t', 'F', 'R', 'O', 'M', ' ', 'm', 'a', 'x', 'k', 'v', ' ', 'C', 'R', 'O', 'S', 'S', ' ', 'J', 'O', 'I', 'N', ' ', 'k', 'i', 'n', 'e', ' ', 'k', 'v', '\n', '\t', '\t', '\t', 'O', 'N', ' ', 'm', 'a', 'x', 'k', 'v', '.', 'i', 'd', ' ', '=', ' ', 'k', 'v', '.', 'i', 'd']

theorem listSqlV1_0_eq : SqlText.listSqlV1_0.toList = listSqlV1_0 :=
  (congrArg String.toList (rfl : SqlText.listSqlV1_0 = String.ofList listSqlV1_0)).trans String.toList_ofList

/-- The characters of `SqlText.revisionIntervalSQL`. -/
def revisionIntervalSQL : List Char := ['\n', '\t', '\t', 'S', 'E', 'L', 'E', 'C', 'T', ' ', '(', '\n', '\t', '\t', '\t', 'S', 'E', 'L', 'E', 'C', 'T', ' ', 'M', 'A', 'X', '(', 'p', 'r', 'e', 'v', '_', 'r', 'e', 'v', 'i', 's', 'i', 'o', 'n', ')', '\n', '\t', '\t', '\t', 'F', 'R', 'O', 'M', ' ', 'k', 'i', 'n', 'e', '\n', '\t', '\t', '\t', 'W', 'H', 'E', 'R', 'E', ' ', 'n', 'a', 'm', 'e', ' ', '=', ' ', '\'', 'c', 'o', 'm', 'p', 'a', 'c', 't', '_', 'r', 'e', 'v', '_', 'k', 'e', 'y', '\'', '\n', '\t', '\t', ')', ' ', 'A', 'S', ' ', 'l', 'o', 'w', ',', ' ', '(', '\n', '\t', '\t', '\t', 'S', 'E', 'L', 'E', 'C', 'T', ' ', 'M', 'A', 'X', '(', 'i', 'd', ')', '\n', '\t', '\t', '\t', 'F', 'R', 'O', 'M', ' ', 'k', 'i', 'n', 'e', '\n', '\t', '\t', ')', ' ', 'A', 'S', ' ', 'h', 'i', 'g', 'h']

theorem revisionIntervalSQL_eq : SqlText.revisionIntervalSQL.toList = revisionIntervalSQL :=
  (congrArg String.toList (rfl : SqlText.revisionIntervalSQL = String.ofList revisionIntervalSQL)).trans String.toList_ofList

/-- The characters of `SqlText.countRevisionSQL`. -/
def countRevisionSQL : List Char := ['\n', '\t', '\t', 'S', 'E', 'L', 'E', 'C', 'T', ' ', 'C', 'O', 'U', 'N', 'T', '(', '*', ')', '\n', '\t', '\t', 'F', 'R', 'O', 'M', ' ', 'k', 'i', 'n', 'e', ' ', 'A', 'S', ' ', 'k', 'v', '\n', '\t', '\t', 'J', 'O', 'I', 'N', ' ', '(', '\n', '\t', '\t', '\t', 'S', 'E', 'L', 'E', 'C', 'T', ' ', 'M', 'A', 'X', '(', 'm', 'k', 'v', '.', 'i', 'd', ')', ' ', 'a', 's', ' ', 'i', 'd', '\n', '\t', '\t', '\t', 'F', 'R', 'O', 'M', ' ', 'k', 'i', 'n', 'e', ' ', 'A', 'S', ' ', 'm', 'k', 'v', '\n', '\t', '\t', '\t', 'W', 'H', 'E', 'R', 'E', '\n', '\t', '\t', '\t', '\t', 'm', 'k', 'v', '.', 'n', 'a', 'm', 'e', ' ', '>', '=', ' ', 'C', 'A', 'S', 'T', '(', '?', ' ', 'A', 'S', ' ', 'T', 'E', 'X', 'T', ')', ' ', 'A', 'N', 'D', ' ', 'm', 'k', 'v', '.', 'n', 'a', 'm', 'e', ' ', '<', ' ', 'C', 'A', 'S', 'T', '(', '?', ' ', 'A', 'S', ' ', 'T', 'E', 'X', 'T', ')', '\n', '\t', '\t', '\t', '\t', 'A', 'N', 'D', ' ', 'm', 'k', 'v', '.', 'i', 'd', ' ', '<', '=', ' ', '?', '\n', '\t', '\t', '\t', 'G', 'R', 'O', 'U', 'P', ' ', 'B', 'Y', ' ', 'm', 'k', 'v', '.', 'n', 'a', 'm', 'e', '\n', '\t', '\t', ')', ' ', 'A', 'S', ' ', 'm', 'a', 'x', 'k', 'v', '\n', '\t', ' ', ' ', ' ', ' ', '\t', 'O', 'N', ' ', 'm', 'a', 'x', 'k', 'v', '.', 'i', 'd', ' ', '=', ' ', 'k', 'v', '.', 'i', 'd', '\n', '\t', '\t', 'W', 'H', 'E', 'R', 'E', ' ', 'k', 'v', '.', 'd', 'e', 'l', 'e', 't', 'e', 'd', ' ', '=', ' ', '0']

theorem countRevisionSQL_eq : SqlText.countRevisionSQL.toList = countRevisionSQL :=
  (congrArg String.toList (rfl : SqlText.countRevisionSQL = String.ofList countRevisionSQL)).trans String.toList_ofList

/-- The characters of `SqlText.countRevisionSQLV1_0`. -/
def countRevisionSQLV1_0 : List Char := ['\n', '\t', '\t', 'S', 'E', 'L', 'E', 'C', 'T', ' ', 'C', 'O', 'U', 'N', 'T', '(', '*', ')', '\n', '\t', '\t', 'F', 'R', 'O', 'M', ' ', '(', '\n', '\t', '\t', '\t', 'S', 'E', 'L', 'E', 'C', 'T', ' ', 'M', 'A', 'X', '(', 'i', 'd', ')', '\n', '\t', '\t', '\t', 'F', 'R', 'O', 'M', ' ', 'k', 'i', 'n', 'e', '\n', '\t', '\t', '\t', 'W', 'H', 'E', 'R', 'E', ' ', 'n', 'a', 'm', 'e', ' ', '>', '=', ' ', 'C', 'A', 'S', 'T', '(', '?', ' ', 'A', 'S', ' ', 'T', 'E', 'X', 'T', ')', ' ', 'A', 'N', 'D', ' ', 'n', 'a', 'm', 'e', ' ', '<', ' ', 'C', 'A', 'S', 'T', '(', '?', ' ', 'A', 'S', ' ', 'T', 'E', 'X', 'T', ')', '\n', '\t', '\t', '\t', '\t', 'A', 'N', 'D', ' ', 'i', 'd', ' ', '<', '=', ' ', '?', '\n', '\t', '\t', '\t', 'G', 'R', 'O', 'U', 'P', ' ', 'B', 'Y', ' ', 'n', 'a', 'm', 'e', '\n', '\t', '\t', '\t', 'H', 'A', 'V', 'I', 'N', 'G', ' ', 'd', 'e', 'l', 'e', 't', 'e', 'd', ' ', '=', ' ', '0', '\n', '\t', '\t', ')']

theorem countRevisionSQLV1_0_eq : SqlText.countRevisionSQLV1_0.toList = countRevisionSQLV1_0 :=
  (congrArg String.toList (rfl : SqlText.countRevisionSQLV1_0 = String.ofList countRevisionSQLV1_0)).trans String.toList_ofList

/-- The characters of `SqlText.afterSQLPrefix`. -/
def afterSQLPrefix : List Char := ['\n', '\t', '\t', 'S', 'E', 'L', 'E', 'C', 'T', ' ', 'i', 'd', ',', ' ', 'n', 'a', 'm', 'e', ',', ' ', 'c', 'r', 'e', 'a', 't', 'e', 'd', ',', ' ', 'd', 'e', 'l', 'e', 't', 'e', 'd', ',', ' ', 'c', 'r', 'e', 'a', 't', 'e', '_', 'r', 'e', 'v', 'i', 's', 'i', 'o', 'n', ',', ' ', 'p', 'r', 'e', 'v', '_', 'r', 'e', 'v', 'i', 's', 'i', 'o', 'n', ',', ' ', 'l', 'e', 'a', 's', 'e', ',', ' ', 'v', 'a', 'l', 'u', 'e', ',', ' ', 'o', 'l', 'd', '_', 'v', 'a', 'l', 'u', 'e', '\n', '\t', '\t', 'F', 'R', 'O', 'M', ' ', 'k', 'i', 'n', 'e', '\n', '\t', '\t', 'W', 'H', 'E', 'R', 'E', ' ', 'n', 'a', 'm', 'e', ' ', '>', '=', ' ', 'C', 'A', 'S', 'T', '(', '?', ' ', 'A', 'S', ' ', 'T', 'E', 'X', 'T', ')', ' ', 'A', 'N', 'D', ' ', 'n', 'a', 'm', 'e', ' ', '<', ' ', 'C', 'A', 'S', 'T', '(', '?', ' ', 'A', 'S', ' ', 'T', 'E', 'X', 'T', ')', '\n', '\t', '\t', '\t', 'A', 'N', 'D', ' ', '?', ' ', '<', ' ', 'i', 'd', ' ', 'A', 'N', 'D', ' ', 'i', 'd', ' ', '<', '=', ' ', '?', '\n', '\t', '\t', 'O', 'R', 'D', 'E', 'R', ' ', 'B', 'Y', ' ', 'i', 'd', ' ', 'A', 'S', 'C']

theorem afterSQLPrefix_eq : SqlText.afterSQLPrefix.toList = afterSQLPrefix :=
  (congrArg String.toList (rfl : SqlText.afterSQLPrefix = String.ofList afterSQLPrefix)).trans String.toList_ofList

/-- The characters of `SqlText.afterSQL`. -/
def afterSQL : List Char := ['\n', '\t', '\t', 'S', 'E', 'L', 'E', 'C', 'T', ' ', 'i', 'd', ',', ' ', 'n', 'a', 'm', 'e', ',', ' ', 'c', 'r', 'e', 'a', 't', 'e', 'd', ',', ' ', 'd', 'e', 'l', 'e', 't', 'e', 'd', ',', ' ', 'c', 'r', 'e', 'a', 't', 'e', '_', 'r', 'e', 'v', 'i', 's', 'i', 'o', 'n', ',', ' ', 'p', 'r', 'e', 'v', '_', 'r', 'e', 'v', 'i', 's', 'i', 'o', 'n', ',', ' ', 'l', 'e', 'a', 's', 'e', ',', ' ', 'v', 'a', 'l', 'u', 'e', ',', ' ', 'o', 'l', 'd', '_', 'v', 'a', 'l', 'u', 'e', '\n', '\t', '\t', 'F', 'R', 'O', 'M', ' ', 'k', 'i', 'n', 'e', '\n', '\t', '\t', 'W', 'H', 'E', 'R', 'E', ' ', 'i', 'd', ' ', '>', ' ', '?', '\n', '\t', '\t', 'O', 'R', 'D', 'E', 'R', ' ', 'B', 'Y', ' ', 'i', 'd', ' ', 'A', 'S', 'C']

theorem afterSQL_eq : SqlText.afterSQL.toList = afterSQL :=
  (congrArg String.toList (rfl : SqlText.afterSQL = String.ofList afterSQL)).trans String.toList_ofList

/-- The characters of `SqlText.ttlSQL`. -/
def ttlSQL : List Char := ['\n', '\t', '\t', 'S', 'E', 'L', 'E', 'C', 'T', ' ', 'k', 'v', '.', 'i', 'd', ',', '\n', '\t', '\t', '\t', 'n', 'a', 'm', 'e', ',', '\n', '\t', '\t', '\t', 'l', 'e', 'a', 's', 'e', '\n', '\t', '\t', 'F', 'R', 'O', 'M', ' ', 'k', 'i', 'n', 'e', ' ', 'A', 'S', ' ', 'k', 'v', '\n', '\t', '\t', 'J', 'O', 'I', 'N', ' ', '(', '\n', '\t', '\t', '\t', 'S', 'E', 'L', 'E', 'C', 'T', ' ', 'M', 'A', 'X', '(', 'm', 'k', 'v', '.', 'i', 'd', ')', ' ', 'a', 's', ' ', 'i', 'd', '\n', '\t', '\t', '\t', 'F', 'R', 'O', 'M', ' ', 'k', 'i', 'n', 'e', ' ', 'A', 'S', ' ', 'm', 'k', 'v', '\n', '\t', '\t', '\t', 'W', 'H', 'E', 'R', 'E', ' ', 'm', 'k', 'v', '.', 'i', 'd', ' ', '<', '=', ' ', '?', '\n', '\t', '\t', '\t', 'G', 'R', 'O', 'U', 'P', ' ', 'B', 'Y', ' ', 'm', 'k', 'v', '.', 'n', 'a', 'm', 'e', '\n', '\t', '\t', ')', ' ', 'A', 'S', ' ', 'm', 'a', 'x', 'k', 'v', '\n', '\t', ' ', ' ', ' ', ' ', '\t', 'O', 'N', ' ', 'm', 'a', 'x', 'k', 'v', '.', 'i', 'd', ' ', '=', ' ', 'k', 'v', '.', 'i', 'd', '\n', '\t', '\t', 'W', 'H', 'E', 'R', 'E', ' ', 'k', 'v', '.', 'd', 'e', 'l', 'e', 't', 'e', 'd', ' ', '=', ' ', '0', ' ', 'A', 'N', 'D', ' ', 'k', 'v', '.', 'l', 'e', 'a', 's', 'e', ' ', '!', '=', ' ', '0']

theorem ttlSQL_eq : SqlText.ttlSQL.toList = ttlSQL :=
  (congrArg String.toList (rfl : SqlText.ttlSQL = String.ofList ttlSQL)).trans String.toList_ofList

/-- The characters of `SqlText.deleteRevSQL`. -/
def deleteRevSQL : List Char := ['\n', '\t', '\t', 'D', 'E', 'L', 'E', 'T', 'E', ' ', 'F', 'R', 'O', 'M', ' ', 'k', 'i', 'n', 'e', '\n', '\t', '\t', 'W', 'H', 'E', 'R', 'E', ' ', 'i', 'd', ' ', '=', ' ', '?']

theorem deleteRevSQL_eq : SqlText.deleteRevSQL.toList = deleteRevSQL :=
  (congrArg String.toList (rfl : SqlText.deleteRevSQL = String.ofList deleteRevSQL)).trans String.toList_ofList

/-- The characters of `SqlText.updateCompactSQL`. -/
def updateCompactSQL : List Char := ['\n', '\t', '\t', 'U', 'P', 'D', 'A', 'T', 'E', ' ', 'k', 'i', 'n', 'e', '\n', '\t', '\t', 'S', 'E', 'T', ' ', 'p', 'r', 'e', 'v', '_', 'r', 'e', 'v', 'i', 's', 'i', 'o', 'n', ' ', '=', ' ', 'm', 'a', 'x', '(', 'p', 'r', 'e', 'v', '_', 'r', 'e', 'v', 'i', 's', 'i', 'o', 'n', ',', ' ', '?', ')', '\n', '\t', '\t', 'W', 'H', 'E', 'R', 'E', ' ', 'n', 'a', 'm', 'e', ' ', '=', ' ', '\'', 'c', 'o', 'm', 'p', 'a', 'c', 't', '_', 'r', 'e', 'v', '_', 'k', 'e', 'y', '\'']

theorem updateCompactSQL_eq : SqlText.updateCompactSQL.toList = updateCompactSQL :=
  (congrArg String.toList (rfl : SqlText.updateCompactSQL = String.ofList updateCompactSQL)).trans String.toList_ofList

/-- The characters of `SqlText.deleteSQL`. -/
def deleteSQL : List Char := ['\n', '\t', '\t', 'I', 'N', 'S', 'E', 'R', 'T', ' ', 'I', 'N', 'T', 'O', ' ', 'k', 'i', 'n', 'e', '(', 'n', 'a', 'm', 'e', ',', ' ', 'c', 'r', 'e', 'a', 't', 'e', 'd', ',', ' ', 'd', 'e', 'l', 'e', 't', 'e', 'd', ',', ' ', 'c', 'r', 'e', 'a', 't', 'e', '_', 'r', 'e', 'v', 'i', 's', 'i', 'o', 'n', ',', ' ', 'p', 'r', 'e', 'v', '_', 'r', 'e', 'v', 'i', 's', 'i', 'o', 'n', ',', ' ', 'l', 'e', 'a', 's', 'e', ',', ' ', 'v', 'a', 'l', 'u', 'e', ',', ' ', 'o', 'l', 'd', '_', 'v', 'a', 'l', 'u', 'e', ')', '\n', '\t', '\t', 'S', 'E', 'L', 'E', 'C', 'T', '\n', '\t', '\t', '\t', 'n', 'a', 'm', 'e', ',', '\n', '\t', '\t', '\t', '0', ' ', 'A', 'S', ' ', 'c', 'r', 'e', 'a', 't', 'e', 'd', ',', '\n', '\t', '\t', '\t', '1', ' ', 'A', 'S', ' ', 'd', 'e', 'l', 'e', 't', 'e', 'd', ',', '\n', '\t', '\t', '\t', 'C', 'A', 'S', 'E', '\n', '\t', '\t', '\t', '\t', 'W', 'H', 'E', 'N', ' ', 'k', 'i', 'n', 'e', '.', 'c', 'r', 'e', 'a', 't', 'e', 'd', ' ', 'T', 'H', 'E', 'N', ' ', 'i', 'd', '\n', '\t', '\t', '\t', '\t', 'E', 'L', 'S', 'E', ' ', 'c', 'r', 'e', 'a', 't', 'e', '_', 'r', 'e', 'v', 'i', 's', 'i', 'o', 'n', '\n', '\t', '\t', '\t', 'E', 'N', 'D', ' ', 'A', 'S', ' ', 'c', 'r', 'e', 'a', 't', 'e', '_', 'r', 'e', 'v', 'i', 's', 'i', 'o', 'n', ',', '\n', '\t', '\t', '\t', 'i', 'd', ' ', 'A', 'S', ' ', 'p', 'r', 'e', 'v', '_', 'r', 'e', 'v', 'i', 's', 'i', 'o', 'n', ',', '\n', '\t', '\t', '\t', 'l', 'e', 'a', 's', 'e', ',', '\n', '\t', '\t', '\t', 'N', 'U', 'L', 'L', ' ', 'A', 'S', ' ', 'v', 'a', 'l', 'u', 'e', ',', '\n', '\t', '\t', '\t', 'v', 'a', 'l', 'u', 'e', ' ', 'A', 'S', ' ', 'o', 'l', 'd', '_', 'v', 'a', 'l', 'u', 'e', '\n', '\t', '\t', 'F', 'R', 'O', 'M', ' ', 'k', 'i', 'n', 'e', ' ', 'W', 'H', 'E', 'R', 'E', ' ', 'i', 'd', ' ', '=', ' ', '(', 'S', 'E', 'L', 'E', 'C', 'T', ' ', 'M', 'A', 'X', '(', 'i', 'd', ')', ' ', 'F', 'R', 'O', 'M', ' ', 'k', 'i', 'n', 'e', ' ', 'W', 'H', 'E', 'R', 'E', ' ', 'n', 'a', 'm', 'e', ' ', '=', ' ', 'C', 'A', 'S', 'T', '(', '?', ' ', 'A', 'S', ' ', 'T', 'E', 'X', 'T', ')', ')', '\n', '\t', '\t', '\t', 'A', 'N', 'D', ' ', 'd', 'e', 'l', 'e', 't', 'e', 'd', ' ', '=', ' ', '0', '\n', '\t', '\t', '\t', 'A', 'N', 'D', ' ', 'i', 'd', ' ', '=', ' ', '?']

theorem deleteSQL_eq : SqlText.deleteSQL.toList = deleteSQL :=
  (congrArg String.toList (rfl : SqlText.deleteSQL = String.ofList deleteSQL)).trans String.toList_ofList

/-- The characters of `SqlText.createSQL`. -/
def createSQL : List Char := ['\n', '\t', '\t', 'I', 'N', 'S', 'E', 'R', 'T', ' ', 'I', 'N', 'T', 'O', ' ', 'k', 'i', 'n', 'e', '(', 'n', 'a', 'm', 'e', ',', ' ', 'c', 'r', 'e', 'a', 't', 'e', 'd', ',', ' ', 'd', 'e', 'l', 'e', 't', 'e', 'd', ',', ' ', 'c', 'r', 'e', 'a', 't', 'e', '_', 'r', 'e', 'v', 'i', 's', 'i', 'o', 'n', ',', ' ', 'p', 'r', 'e', 'v', '_', 'r', 'e', 'v', 'i', 's', 'i', 'o', 'n', ',', ' ', 'l', 'e', 'a', 's', 'e', ',', ' ', 'v', 'a', 'l', 'u', 'e', ',', ' ', 'o', 'l', 'd', '_', 'v', 'a', 'l', 'u', 'e', ')', '\n', '\t', '\t', 'S', 'E', 'L', 'E', 'C', 'T', '\n', '\t', '\t', '\t', 'C', 'A', 'S', 'T', '(', '?', ' ', 'A', 'S', ' ', 'T', 'E', 'X', 'T', ')', ' ', 'A', 'S', ' ', 'n', 'a', 'm', 'e', ',', '\n', '\t', '\t', '\t', '1', ' ', 'A', 'S', ' ', 'c', 'r', 'e', 'a', 't', 'e', 'd', ',', '\n', '\t', '\t', '\t', '0', ' ', 'A', 'S', ' ', 'd', 'e', 'l', 'e', 't', 'e', 'd', ',', '\n', '\t', '\t', '\t', '0', ' ', 'A', 'S', ' ', 'c', 'r', 'e', 'a', 't', 'e', '_', 'r', 'e', 'v', 'i', 's', 'i', 'o', 'n', ',', '\n', '\t', '\t', '\t', 'C', 'O', 'A', 'L', 'E', 'S', 'C', 'E', '(', 'i', 'd', ',', ' ', '0', ')', ' ', 'A', 'S', ' ', 'p', 'r', 'e', 'v', '_', 'r', 'e', 'v', 'i', 's', 'i', 'o', 'n', ',', '\n', '\t', '\t', '\t', '?', ' ', 'A', 'S', ' ', 'l', 'e', 'a', 's', 'e', ',', '\n', '\t', '\t', '\t', '?', ' ', 'A', 'S', ' ', 'v', 'a', 'l', 'u', 'e', ',', '\n', '\t', '\t', '\t', 'N', 'U', 'L', 'L', ' ', 'A', 'S', ' ', 'o', 'l', 'd', '_', 'v', 'a', 'l', 'u', 'e', '\n', '\t', '\t', 'F', 'R', 'O', 'M', ' ', '(', '\n', '\t', '\t', '\t', 'S', 'E', 'L', 'E', 'C', 'T', ' ', 'M', 'A', 'X', '(', 'i', 'd', ')', ' ', 'A', 'S', ' ', 'i', 'd', ',', ' ', 'd', 'e', 'l', 'e', 't', 'e', 'd', '\n', '\t', '\t', '\t', 'F', 'R', 'O', 'M', ' ', 'k', 'i', 'n', 'e', '\n', '\t', '\t', '\t', 'W', 'H', 'E', 'R', 'E', ' ', 'n', 'a', 'm', 'e', ' ', '=', ' ', 'C', 'A', 'S', 'T', '(', '?', ' ', 'A', 'S', ' ', 'T', 'E', 'X', 'T', ')', '\n', '\t', '\t', ')', ' ', 'm', 'a', 'x', 'k', 'v', '\n', '\t', '\t', 'W', 'H', 'E', 'R', 'E', ' ', 'm', 'a', 'x', 'k', 'v', '.', 'd', 'e', 'l', 'e', 't', 'e', 'd', ' ', '=', ' ', '1', ' ', 'O', 'R', ' ', 'i', 'd', ' ', 'I', 'S', ' ', 'N', 'U', 'L', 'L']

theorem createSQL_eq : SqlText.createSQL.toList = createSQL :=
  (congrArg String.toList (rfl : SqlText.createSQL = String.ofList createSQL)).trans String.toList_ofList

/-- The characters of `SqlText.updateSQL`. -/
def updateSQL : List Char := ['\n', '\t', '\t', 'I', 'N', 'S', 'E', 'R', 'T', ' ', 'I', 'N', 'T', 'O', ' ', 'k', 'i', 'n', 'e', '(', 'n', 'a', 'm', 'e', ',', ' ', 'c', 'r', 'e', 'a', 't', 'e', 'd', ',', ' ', 'd', 'e', 'l', 'e', 't', 'e', 'd', ',', ' ', 'c', 'r', 'e', 'a', 't', 'e', '_', 'r', 'e', 'v', 'i', 's', 'i', 'o', 'n', ',', ' ', 'p', 'r', 'e', 'v', '_', 'r', 'e', 'v', 'i', 's', 'i', 'o', 'n', ',', ' ', 'l', 'e', 'a', 's', 'e', ',', ' ', 'v', 'a', 'l', 'u', 'e', ',', ' ', 'o', 'l', 'd', '_', 'v', 'a', 'l', 'u', 'e', ')', '\n', '\t', '\t', 'S', 'E', 'L', 'E', 'C', 'T', '\n', '\t', '\t', '\t', 'C', 'A', 'S', 'T', '(', '?', ' ', 'A', 'S', ' ', 'T', 'E', 'X', 'T', ')', ' ', 'A', 'S', ' ', 'n', 'a', 'm', 'e', ',', '\n', '\t', '\t', '\t', '0', ' ', 'A', 'S', ' ', 'c', 'r', 'e', 'a', 't', 'e', 'd', ',', '\n', '\t', '\t', '\t', '0', ' ', 'A', 'S', ' ', 'd', 'e', 'l', 'e', 't', 'e', 'd', ',', '\n', '\t', '\t', '\t', 'C', 'A', 'S', 'E', '\n', '\t', '\t', '\t', '\t', 'W', 'H', 'E', 'N', ' ', 'k', 'i', 'n', 'e', '.', 'c', 'r', 'e', 'a', 't', 'e', 'd', ' ', 'T', 'H', 'E', 'N', ' ', 'i', 'd', '\n', '\t', '\t', '\t', '\t', 'E', 'L', 'S', 'E', ' ', 'c', 'r', 'e', 'a', 't', 'e', '_', 'r', 'e', 'v', 'i', 's', 'i', 'o', 'n', '\n', '\t', '\t', '\t', 'E', 'N', 'D', ' ', 'A', 'S', ' ', 'c', 'r', 'e', 'a', 't', 'e', '_', 'r', 'e', 'v', 'i', 's', 'i', 'o', 'n', ',', '\n', '\t', '\t', '\t', 'i', 'd', ' ', 'A', 'S', ' ', 'p', 'r', 'e', 'v', '_', 'r', 'e', 'v', 'i', 's', 'i', 'o', 'n', ',', '\n', '\t', '\t', '\t', '?', ' ', 'A', 'S', ' ', 'l', 'e', 'a', 's', 'e', ',', '\n', '\t', '\t', '\t', '?', ' ', 'A', 'S', ' ', 'v', 'a', 'l', 'u', 'e', ',', '\n', '\t', '\t', '\t', 'v', 'a', 'l', 'u', 'e', ' ', 'A', 'S', ' ', 'o', 'l', 'd', '_', 'v', 'a', 'l', 'u', 'e', '\n', '\t', '\t', 'F', 'R', 'O', 'M', ' ', 'k', 'i', 'n', 'e', ' ', 'W', 'H', 'E', 'R', 'E', ' ', 'i', 'd', ' ', '=', ' ', '(', 'S', 'E', 'L', 'E', 'C', 'T', ' ', 'M', 'A', 'X', '(', 'i', 'd', ')', ' ', 'F', 'R', 'O', 'M', ' ', 'k', 'i', 'n', 'e', ' ', 'W', 'H', 'E', 'R', 'E', ' ', 'n', 'a', 'm', 'e', ' ', '=', ' ', 'C', 'A', 'S', 'T', '(', '?', ' ', 'A', 'S', ' ', 'T', 'E', 'X', 'T', ')', ')', '\n', '\t', '\t', '\t', 'A', 'N', 'D', ' ', 'd', 'e', 'l', 'e', 't', 'e', 'd', ' ', '=', ' ', '0', '\n', '\t', '\t', '\t', 'A', 'N', 'D', ' ', 'i', 'd', ' ', '=', ' ', '?']

theorem updateSQL_eq : SqlText.updateSQL.toList = updateSQL :=
  (congrArg String.toList (rfl : SqlText.updateSQL = String.ofList updateSQL)).trans String.toList_ofList

/-- The characters of `SqlText.compactSuperseded`. -/
def compactSuperseded : List Char := ['\n', '\t', '\t', 'D', 'E', 'L', 'E', 'T', 'E', ' ', 'F', 'R', 'O', 'M', ' ', 'k', 'i', 'n', 'e', '\n', '\t', '\t', 'W', 'H', 'E', 'R', 'E', ' ', 'i', 'd', ' ', 'I', 'N', ' ', '(', '\n', '\t', '\t', '\t', 'S', 'E', 'L', 'E', 'C', 'T', ' ', 'p', 'r', 'e', 'v', '_', 'r', 'e', 'v', 'i', 's', 'i', 'o', 'n', '\n', '\t', '\t', '\t', 'F', 'R', 'O', 'M', ' ', 'k', 'i', 'n', 'e', '\n', '\t', '\t', '\t', 'W', 'H', 'E', 'R', 'E', ' ', 'n', 'a', 'm', 'e', ' ', '!', '=', ' ', '\'', 'c', 'o', 'm', 'p', 'a', 'c', 't', '_', 'r', 'e', 'v', '_', 'k', 'e', 'y', '\'', '\n', '\t', '\t', '\t', '\t', 'A', 'N', 'D', ' ', 'c', 'r', 'e', 'a', 't', 'e', 'd', ' ', '=', ' ', '0', '\n', '\t', '\t', '\t', '\t', 'A', 'N', 'D', ' ', 'p', 'r', 'e', 'v', '_', 'r', 'e', 'v', 'i', 's', 'i', 'o', 'n', ' ', '!', '=', ' ', '0', '\n', '\t', '\t', '\t', '\t', 'A', 'N', 'D', ' ', '?', ' ', '<', ' ', 'i', 'd', ' ', 'A', 'N', 'D', ' ', 'i', 'd', ' ', '<', '=', ' ', '?', '\n', '\t', '\t', ')', '\n', '\t']

theorem compactSuperseded_eq : SqlText.compactSuperseded.toList = compactSuperseded :=
  (congrArg String.toList (rfl : SqlText.compactSuperseded = String.ofList compactSuperseded)).trans String.toList_ofList

/-- The characters of `SqlText.compactTombstones`. -/
def compactTombstones : List Char := ['\n', '\t', '\t', 'D', 'E', 'L', 'E', 'T', 'E', ' ', 'F', 'R', 'O', 'M', ' ', 'k', 'i', 'n', 'e', '\n', '\t', '\t', 'W', 'H', 'E', 'R', 'E', ' ', 'd', 'e', 'l', 'e', 't', 'e', 'd', ' ', '=', ' ', '1', '\n', '\t', '\t', '\t', 'A', 'N', 'D', ' ', '?', ' ', '<', ' ', 'i', 'd', ' ', 'A', 'N', 'D', ' ', 'i', 'd', ' ', '<', '=', ' ', '?', '\n', '\t']

theorem compactTombstones_eq : SqlText.compactTombstones.toList = compactTombstones :=
  (congrArg String.toList (rfl : SqlText.compactTombstones = String.ofList compactTombstones)).trans String.toList_ofList

/-- The characters of `SqlText.limitSuffix`. -/
def limitSuffix : List Char := [' ', 'L', 'I', 'M', 'I', 'T', ' ', '?']

theorem limitSuffix_eq : SqlText.limitSuffix.toList = limitSuffix :=
  (congrArg String.toList (rfl : SqlText.limitSuffix = String.ofList limitSuffix)).trans String.toList_ofList

end Verif.SqlChars
