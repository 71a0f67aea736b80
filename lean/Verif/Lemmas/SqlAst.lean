import Verif.Model.SqlParse
import Verif.Lemmas.SqlChars
/-!
# The statements as syntax trees

`parse_…`: the parser turns the statement texts of `driver.go` into these trees (checked by the kernel).
-/

namespace Verif.SqlAst

open Verif.SqlLang

/-- A missing WHERE or HAVING. -/
abbrev always : Expr := .lit (.int 1)

/-- All columns, as in `afterSQL` (`driver.go:185,192`). -/
def eventItems : Items :=
  .cons (.col none .id) none (.cons (.col none .name) none (.cons (.col none .created) none
    (.cons (.col none .deleted) none (.cons (.col none .create_revision) none
    (.cons (.col none .prev_revision) none (.cons (.col none .lease) none (.cons (.col none .value) none
    (.cons (.col none .old_value) none .nil))))))))

/-- The columns of `listSQL` (`driver.go:93-97,138-145`). -/
def listItems : Items :=
  .cons (.col (some .kv) .id) none (.cons (.col none .name) none (.cons (.caseWhen (.col (some .kv) .created)
    (.col (some .kv) .id) (.col (some .kv) .create_revision)) (some .create_revision) (.cons (.col none .lease) none
    (.cons (.col none .value) none .nil))))

/-- `name >= CAST(? AS TEXT) AND name < CAST(? AS TEXT)`. -/
def inRangeE (t : Option Ident) : Expr :=
  .and (.cmp .ge (.col t .name) (.castText (.param 0))) (.cmp .lt (.col t .name) (.castText (.param 1)))

/-- `… AND id <= ?`. -/
def rangeWhere (t : Option Ident) : Expr := .and (inRangeE t) (.cmp .le (.col t .id) (.param 2))

/-- `SELECT MAX(mkv.id) AS id FROM kine AS mkv WHERE … GROUP BY mkv.name`. -/
def maxSub (whr : Expr) : Query :=
  .select (.cons (.aggMax (.col (some .mkv) .id)) (some .id) .nil) (.table .kine .mkv) whr
    (.cons (.col (some .mkv) .name) .nil) always .nil .nil

/-- `maxkv.id = kv.id`. -/
def onIds : Expr := .cmp .eq (.col (some .maxkv) .id) (.col (some .kv) .id)

/-- `kine AS kv JOIN (…) AS maxkv ON maxkv.id = kv.id`. -/
def joinMax (whr : Expr) : Source := .join (.table .kine .kv) (.sub (maxSub whr) (some .maxkv)) onIds

/-- `kv.deleted = 0`. -/
def kvLive : Expr := .cmp .eq (.col (some .kv) .deleted) (.lit (.int 0))

/-- `deleted = 0`. -/
def live : Expr := .cmp .eq (.col none .deleted) (.lit (.int 0))

/-- `SELECT MAX(id) FROM kine WHERE … GROUP BY name HAVING deleted = 0`. -/
def maxLive (as : Option Ident) (ord : Exprs) : Query :=
  .select (.cons (.aggMax (.col none .id)) as .nil) (.table .kine .kine) (rangeWhere none)
    (.cons (.col none .name) .nil) live ord .nil

/-- `SELECT MAX(id) FROM kine WHERE name = CAST(? AS TEXT)`. -/
def maxOf (n : Nat) : Query :=
  .select (.cons (.aggMax (.col none .id)) none .nil) (.table .kine .kine)
    (.cmp .eq (.col none .name) (.castText (.param n))) .nil always .nil .nil

/-- `id = (SELECT MAX(id) …) AND deleted = 0 AND id = ?`. -/
def casWhere (key rev : Nat) : Expr :=
  .and (.and (.cmp .eq (.col none .id) (.scalar (maxOf key))) live) (.cmp .eq (.col none .id) (.param rev))

/-- `CASE WHEN kine.created THEN id ELSE create_revision END`. -/
def crev : Expr := .caseWhen (.col (some .kine) .created) (.col none .id) (.col none .create_revision)

/-- The columns of all INSERTs. -/
def insertCols : List Ident :=
  [.name, .created, .deleted, .create_revision, .prev_revision, .lease, .value, .old_value]

/-- The result columns of `deleteSQL` (`driver.go:223-233`). -/
def deleteItems : Items :=
  .cons (.col none .name) none (.cons (.lit (.int 0)) (some .created) (.cons (.lit (.int 1)) (some .deleted)
    (.cons crev (some .create_revision) (.cons (.col none .id) (some .prev_revision) (.cons (.col none .lease) none
    (.cons (.lit .null) (some .value) (.cons (.col none .value) (some .old_value) .nil)))))))

/-- The result columns of `createSQL` (`driver.go:241-248`). -/
def createItems : Items :=
  .cons (.castText (.param 0)) (some .name) (.cons (.lit (.int 1)) (some .created)
    (.cons (.lit (.int 0)) (some .deleted) (.cons (.lit (.int 0)) (some .create_revision)
    (.cons (.coalesce (.col none .id) (.lit (.int 0))) (some .prev_revision) (.cons (.param 1) (some .lease)
    (.cons (.param 2) (some .value) (.cons (.lit .null) (some .old_value) .nil)))))))

/-- The result columns of `updateSQL` (`driver.go:259-269`). -/
def updateItems : Items :=
  .cons (.castText (.param 0)) (some .name) (.cons (.lit (.int 0)) (some .created)
    (.cons (.lit (.int 0)) (some .deleted) (.cons crev (some .create_revision)
    (.cons (.col none .id) (some .prev_revision) (.cons (.param 1) (some .lease)
    (.cons (.param 2) (some .value) (.cons (.col none .value) (some .old_value) .nil)))))))

/-- `SELECT MAX(id) AS id, deleted FROM kine WHERE name = CAST(? AS TEXT)`. -/
def createSub : Query :=
  .select (.cons (.aggMax (.col none .id)) (some .id) (.cons (.col none .deleted) none .nil)) (.table .kine .kine)
    (.cmp .eq (.col none .name) (.castText (.param 3))) .nil always .nil .nil

/-- `revSQL` (`driver.go:88-90`). -/
def revSQL : Stmt :=
  .query (.select (.cons (.aggMax (.col none .id)) (some .id) .nil) (.table .kine .kine) always .nil always .nil .nil)

/-- `listSQL` (`driver.go:92-109`). -/
def listSQLQ (lim : Exprs) : Query :=
  .select listItems (joinMax (rangeWhere (some .mkv))) kvLive .nil always
    (.cons (.col (some .kv) .name) (.cons (.col (some .kv) .id) .nil)) lim

/-- `listSqlV1_0` (`driver.go:128-147`). -/
def listSqlV1_0Q (lim : Exprs) : Query :=
  .withCte .maxkv (maxLive (some .id) (.cons (.col none .name) .nil))
    (.select listItems (.cross (.table .maxkv .maxkv) (.table .kine .kv) onIds) always .nil always .nil lim)

/-- `revisionIntervalSQL` (`driver.go:149-157`). -/
def revisionIntervalSQL : Stmt :=
  .query (.select (.cons (.scalar (.select (.cons (.aggMax (.col none .prev_revision)) none .nil)
      (.table .kine .kine) (.cmp .eq (.col none .name) (.lit (.text compactRevKey))) .nil always .nil .nil)) (some .low)
    (.cons (.scalar (.select (.cons (.aggMax (.col none .id)) none .nil) (.table .kine .kine) always .nil always
      .nil .nil)) (some .high) .nil)) .unit always .nil always .nil .nil)

/-- `countRevisionSQL` (`driver.go:159-171`). -/
def countRevisionSQL : Stmt :=
  .query (.select (.cons .countStar none .nil) (joinMax (rangeWhere (some .mkv))) kvLive .nil always .nil .nil)

/-- `countRevisionSQLV1_0` (`driver.go:173-182`). -/
def countRevisionSQLV1_0 : Stmt :=
  .query (.select (.cons .countStar none .nil) (.sub (maxLive none .nil) none) always .nil always .nil .nil)

/-- `afterSQLPrefix` (`driver.go:184-189`). -/
def afterSQLPrefix : Stmt :=
  .query (.select eventItems (.table .kine .kine)
    (.and (.and (inRangeE none) (.cmp .lt (.param 2) (.col none .id))) (.cmp .le (.col none .id) (.param 3))) .nil always
    (.cons (.col none .id) .nil) .nil)

/-- `afterSQL` (`driver.go:191-195`). -/
def afterSQLQ (lim : Exprs) : Query :=
  .select eventItems (.table .kine .kine) (.cmp .gt (.col none .id) (.param 0)) .nil always (.cons (.col none .id) .nil)
    lim

/-- `ttlSQL` (`driver.go:197-209`). -/
def ttlSQL : Stmt :=
  .query (.select (.cons (.col (some .kv) .id) none (.cons (.col none .name) none (.cons (.col none .lease) none .nil)))
    (joinMax (.cmp .le (.col (some .mkv) .id) (.param 0)))
    (.and kvLive (.cmp .ne (.col (some .kv) .lease) (.lit (.int 0)))) .nil always .nil .nil)

/-- `deleteRevSQL` (`driver.go:211-213`). -/
def deleteRevSQL : Stmt := .delete (.cmp .eq (.col none .id) (.param 0))

/-- `updateCompactSQL` (`driver.go:215-218`). -/
def updateCompactSQL : Stmt :=
  .update .prev_revision (.max2 (.col none .prev_revision) (.param 0))
    (.cmp .eq (.col none .name) (.lit (.text compactRevKey)))

/-- `deleteSQL` (`driver.go:220-236`). -/
def deleteSQL : Stmt :=
  .insert insertCols (.select deleteItems (.table .kine .kine) (casWhere 0 1) .nil always .nil .nil)

/-- `createSQL` (`driver.go:238-254`). -/
def createSQL : Stmt :=
  .insert insertCols (.select createItems (.sub createSub (some .maxkv))
    (.or (.cmp .eq (.col (some .maxkv) .deleted) (.lit (.int 1))) (.isNull (.col none .id))) .nil always .nil .nil)

/-- `updateSQL` (`driver.go:256-272`). -/
def updateSQL : Stmt :=
  .insert insertCols (.select updateItems (.table .kine .kine) (casWhere 3 4) .nil always .nil .nil)

/-- First DELETE of `tryCompact` (`driver.go:647-657`). -/
def compactSuperseded : Stmt :=
  .delete (.inQuery (.col none .id) (.select (.cons (.col none .prev_revision) none .nil) (.table .kine .kine)
    (.and (.and (.and (.and (.cmp .ne (.col none .name) (.lit (.text compactRevKey)))
      (.cmp .eq (.col none .created) (.lit (.int 0)))) (.cmp .ne (.col none .prev_revision) (.lit (.int 0))))
      (.cmp .lt (.param 0) (.col none .id))) (.cmp .le (.col none .id) (.param 1))) .nil always .nil .nil))

/-- Second DELETE of `tryCompact` (`driver.go:661-665`). -/
def compactTombstones : Stmt :=
  .delete (.and (.and (.cmp .eq (.col none .deleted) (.lit (.int 1))) (.cmp .lt (.param 0) (.col none .id)))
    (.cmp .le (.col none .id) (.param 1)))

set_option maxRecDepth 100000

theorem parse_revSQL : parse SqlText.revSQL.toList = some revSQL := by
  rw [SqlChars.revSQL_eq]; decide +kernel

theorem parse_revisionIntervalSQL : parse SqlText.revisionIntervalSQL.toList = some revisionIntervalSQL := by
  rw [SqlChars.revisionIntervalSQL_eq]; decide +kernel

theorem parse_countRevisionSQL : parse SqlText.countRevisionSQL.toList = some countRevisionSQL := by
  rw [SqlChars.countRevisionSQL_eq]; decide +kernel

theorem parse_countRevisionSQLV1_0 : parse SqlText.countRevisionSQLV1_0.toList = some countRevisionSQLV1_0 := by
  rw [SqlChars.countRevisionSQLV1_0_eq]; decide +kernel

theorem parse_afterSQLPrefix : parse SqlText.afterSQLPrefix.toList = some afterSQLPrefix := by
  rw [SqlChars.afterSQLPrefix_eq]; decide +kernel

theorem parse_ttlSQL : parse SqlText.ttlSQL.toList = some ttlSQL := by
  rw [SqlChars.ttlSQL_eq]; decide +kernel

theorem parse_deleteRevSQL : parse SqlText.deleteRevSQL.toList = some deleteRevSQL := by
  rw [SqlChars.deleteRevSQL_eq]; decide +kernel

theorem parse_updateCompactSQL : parse SqlText.updateCompactSQL.toList = some updateCompactSQL := by
  rw [SqlChars.updateCompactSQL_eq]; decide +kernel

theorem parse_deleteSQL : parse SqlText.deleteSQL.toList = some deleteSQL := by
  rw [SqlChars.deleteSQL_eq]; decide +kernel

theorem parse_createSQL : parse SqlText.createSQL.toList = some createSQL := by
  rw [SqlChars.createSQL_eq]; decide +kernel

theorem parse_updateSQL : parse SqlText.updateSQL.toList = some updateSQL := by
  rw [SqlChars.updateSQL_eq]; decide +kernel

theorem parse_compactSuperseded : parse SqlText.compactSuperseded.toList = some compactSuperseded := by
  rw [SqlChars.compactSuperseded_eq]; decide +kernel

theorem parse_compactTombstones : parse SqlText.compactTombstones.toList = some compactTombstones := by
  rw [SqlChars.compactTombstones_eq]; decide +kernel

theorem parse_listSQL : parse SqlText.listSQL.toList = some (.query (listSQLQ .nil)) := by
  rw [SqlChars.listSQL_eq]; decide +kernel

theorem parse_listSQL_limit :
    parse (SqlText.listSQL ++ SqlText.limitSuffix).toList = some (.query (listSQLQ (.cons (.param 3) .nil))) := by
  rw [String.toList_append, SqlChars.listSQL_eq, SqlChars.limitSuffix_eq]; decide +kernel

theorem parse_listSqlV1_0 : parse SqlText.listSqlV1_0.toList = some (.query (listSqlV1_0Q .nil)) := by
  rw [SqlChars.listSqlV1_0_eq]; decide +kernel

theorem parse_listSqlV1_0_limit :
    parse (SqlText.listSqlV1_0 ++ SqlText.limitSuffix).toList = some (.query (listSqlV1_0Q (.cons (.param 3) .nil))) := by
  rw [String.toList_append, SqlChars.listSqlV1_0_eq, SqlChars.limitSuffix_eq]; decide +kernel

theorem parse_afterSQL : parse SqlText.afterSQL.toList = some (.query (afterSQLQ .nil)) := by
  rw [SqlChars.afterSQL_eq]; decide +kernel

theorem parse_afterSQL_limit :
    parse (SqlText.afterSQL ++ SqlText.limitSuffix).toList = some (.query (afterSQLQ (.cons (.param 1) .nil))) := by
  rw [String.toList_append, SqlChars.afterSQL_eq, SqlChars.limitSuffix_eq]; decide +kernel

end Verif.SqlAst
