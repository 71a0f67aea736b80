/-!
# The SQL statement texts of the driver

Generated by `/verif/tools/sqltext.py` from `/repo/pkg/backend/sqlite/driver.go`; the string literals are
byte-for-byte copies (`tools/sqltext.py --check` compares them).
-/

namespace Verif.SqlText

/-- `driver.go:88-90` -/
def revSQL : String := "
		SELECT MAX(id) AS id
		FROM kine"

/-- `driver.go:92-109` -/
def listSQL : String := "
		SELECT kv.id,
			name,
			CASE WHEN kv.created THEN kv.id ELSE kv.create_revision END AS create_revision,
			lease,
			value
		FROM kine AS kv
		JOIN (
			SELECT MAX(mkv.id) as id
			FROM kine AS mkv
			WHERE
				mkv.name >= CAST(? AS TEXT) AND mkv.name < CAST(? AS TEXT)
				AND mkv.id <= ?
			GROUP BY mkv.name
		) AS maxkv
	    	ON maxkv.id = kv.id
		WHERE kv.deleted = 0
		ORDER BY kv.name ASC, kv.id ASC"

/-- `driver.go:128-147` -/
def listSqlV1_0 : String := "
		WITH maxkv AS (
			SELECT MAX(id) AS id
			FROM kine
			WHERE name >= CAST(? AS TEXT) AND name < CAST(? AS TEXT)
				AND id <= ?
			GROUP BY name
			HAVING deleted = 0
			ORDER BY name
		)
		SELECT kv.id,
			name,
			CASE
				WHEN kv.created THEN kv.id
				ELSE kv.create_revision
			END AS create_revision,
			lease,
			value
		FROM maxkv CROSS JOIN kine kv
			ON maxkv.id = kv.id"

/-- `driver.go:149-157` -/
def revisionIntervalSQL : String := "
		SELECT (
			SELECT MAX(prev_revision)
			FROM kine
			WHERE name = 'compact_rev_key'
		) AS low, (
			SELECT MAX(id)
			FROM kine
		) AS high"

/-- `driver.go:159-171` -/
def countRevisionSQL : String := "
		SELECT COUNT(*)
		FROM kine AS kv
		JOIN (
			SELECT MAX(mkv.id) as id
			FROM kine AS mkv
			WHERE
				mkv.name >= CAST(? AS TEXT) AND mkv.name < CAST(? AS TEXT)
				AND mkv.id <= ?
			GROUP BY mkv.name
		) AS maxkv
	    	ON maxkv.id = kv.id
		WHERE kv.deleted = 0"

/-- `driver.go:173-182` -/
def countRevisionSQLV1_0 : String := "
		SELECT COUNT(*)
		FROM (
			SELECT MAX(id)
			FROM kine
			WHERE name >= CAST(? AS TEXT) AND name < CAST(? AS TEXT)
				AND id <= ?
			GROUP BY name
			HAVING deleted = 0
		)"

/-- `driver.go:184-189` -/
def afterSQLPrefix : String := "
		SELECT id, name, created, deleted, create_revision, prev_revision, lease, value, old_value
		FROM kine
		WHERE name >= CAST(? AS TEXT) AND name < CAST(? AS TEXT)
			AND ? < id AND id <= ?
		ORDER BY id ASC"

/-- `driver.go:191-195` -/
def afterSQL : String := "
		SELECT id, name, created, deleted, create_revision, prev_revision, lease, value, old_value
		FROM kine
		WHERE id > ?
		ORDER BY id ASC"

/-- `driver.go:197-209` -/
def ttlSQL : String := "
		SELECT kv.id,
			name,
			lease
		FROM kine AS kv
		JOIN (
			SELECT MAX(mkv.id) as id
			FROM kine AS mkv
			WHERE mkv.id <= ?
			GROUP BY mkv.name
		) AS maxkv
	    	ON maxkv.id = kv.id
		WHERE kv.deleted = 0 AND kv.lease != 0"

/-- `driver.go:211-213` -/
def deleteRevSQL : String := "
		DELETE FROM kine
		WHERE id = ?"

/-- `driver.go:215-218` -/
def updateCompactSQL : String := "
		UPDATE kine
		SET prev_revision = max(prev_revision, ?)
		WHERE name = 'compact_rev_key'"

/-- `driver.go:220-236` -/
def deleteSQL : String := "
		INSERT INTO kine(name, created, deleted, create_revision, prev_revision, lease, value, old_value)
		SELECT
			name,
			0 AS created,
			1 AS deleted,
			CASE
				WHEN kine.created THEN id
				ELSE create_revision
			END AS create_revision,
			id AS prev_revision,
			lease,
			NULL AS value,
			value AS old_value
		FROM kine WHERE id = (SELECT MAX(id) FROM kine WHERE name = CAST(? AS TEXT))
			AND deleted = 0
			AND id = ?"

/-- `driver.go:238-254` -/
def createSQL : String := "
		INSERT INTO kine(name, created, deleted, create_revision, prev_revision, lease, value, old_value)
		SELECT
			CAST(? AS TEXT) AS name,
			1 AS created,
			0 AS deleted,
			0 AS create_revision,
			COALESCE(id, 0) AS prev_revision,
			? AS lease,
			? AS value,
			NULL AS old_value
		FROM (
			SELECT MAX(id) AS id, deleted
			FROM kine
			WHERE name = CAST(? AS TEXT)
		) maxkv
		WHERE maxkv.deleted = 1 OR id IS NULL"

/-- `driver.go:256-272` -/
def updateSQL : String := "
		INSERT INTO kine(name, created, deleted, create_revision, prev_revision, lease, value, old_value)
		SELECT
			CAST(? AS TEXT) AS name,
			0 AS created,
			0 AS deleted,
			CASE
				WHEN kine.created THEN id
				ELSE create_revision
			END AS create_revision,
			id AS prev_revision,
			? AS lease,
			? AS value,
			value AS old_value
		FROM kine WHERE id = (SELECT MAX(id) FROM kine WHERE name = CAST(? AS TEXT))
			AND deleted = 0
			AND id = ?"

/-- `driver.go:647-657` -/
def compactSuperseded : String := "
		DELETE FROM kine
		WHERE id IN (
			SELECT prev_revision
			FROM kine
			WHERE name != 'compact_rev_key'
				AND created = 0
				AND prev_revision != 0
				AND ? < id AND id <= ?
		)
	"

/-- `driver.go:661-665` -/
def compactTombstones : String := "
		DELETE FROM kine
		WHERE deleted = 1
			AND ? < id AND id <= ?
	"

/-- `driver.go:732-732` -/
def limitSuffix : String := " LIMIT ?"

end Verif.SqlText
