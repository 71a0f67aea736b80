import Verif.Model.GoQuote
/-!
# Source text (Schema)

Generated by `/verif/tools/gotext.py`; the literals are byte-for-byte copies of functions in `/repo` (`tools/gotext.py --check` compares them).
-/

namespace Verif.GoText.Schema

open Verif.Go

/-- `/repo/pkg/backend/sqlite/schema.go:23-25` -/
go_func f_NewSchemaVersion r#"func NewSchemaVersion(major int16, minor int16) SchemaVersion {
	return SchemaVersion(int32(major)<<16 | int32(minor))
}
"#

/-- `/repo/pkg/backend/sqlite/schema.go:27-30` -/
go_func f_Major r#"func (sv SchemaVersion) Major() int16 {
	// Extract the high 16 bits
	return int16((int32(sv) >> 16))
}
"#

/-- `/repo/pkg/backend/sqlite/schema.go:32-35` -/
go_func f_Minor r#"func (sv SchemaVersion) Minor() int16 {
	// Extract the lower 16 bits
	return int16(sv)
}
"#

/-- `/repo/pkg/backend/sqlite/schema.go:37-46` -/
go_func f_CompatibleWith r#"func (sv SchemaVersion) CompatibleWith(targetSV SchemaVersion) error {
	// Major version must be the same unless the schema version is 0.0
	if sv.Major() == 0 && sv.Minor() == 0 {
		return nil
	}
	if sv.Major() != targetSV.Major() {
		return ErrIncompatibleVersion
	}
	return nil
}
"#

/-- `/repo/pkg/backend/sqlite/schema.go:51-93` -/
go_func f_applySchemaV0_1 r#"func applySchemaV0_1(ctx context.Context, txn *sql.Tx) error {
	if kineTableExists, err := hasTable(ctx, txn, "kine"); err != nil {
		return err
	} else if !kineTableExists {
		// In this case the schema it's empty, so it is just
		// a matter of creating the table.
		createTableSQL := `
		CREATE TABLE kine
		(
			id INTEGER PRIMARY KEY AUTOINCREMENT,
			name TEXT NOT NULL,
			created INTEGER,
			deleted INTEGER,
			create_revision INTEGER NOT NULL,
			prev_revision INTEGER,
			lease INTEGER,
			value BLOB,
			old_value BLOB
		)`

		if _, err := txn.ExecContext(ctx, createTableSQL); err != nil {
			return err
		}
	} else {
		// The kine table already exists, so this is the case of
		// the unversioned schema that includes the wrong indexes.
		if _, err := txn.ExecContext(ctx, `DROP INDEX IF EXISTS kine_name_index`); err != nil {
			return err
		}
		if _, err := txn.ExecContext(ctx, `DROP INDEX IF EXISTS kine_name_prev_revision_uindex`); err != nil {
			return err
		}
	}

	if _, err := txn.ExecContext(ctx, `CREATE INDEX IF NOT EXISTS kine_name_index ON kine (name, id)`); err != nil {
		return err
	}

	if _, err := txn.ExecContext(ctx, `CREATE UNIQUE INDEX IF NOT EXISTS kine_name_prev_revision_uindex ON kine (prev_revision, name)`); err != nil {
		return err
	}
	return nil
}
"#

/-- `/repo/pkg/backend/sqlite/schema.go:96-112` -/
go_func f_applySchemaV1_0 r#"func applySchemaV1_0(ctx context.Context, txn *sql.Tx) error {
	// Legacy nodes (v1..1.12 and older) panic if they try to migrate to any
	// new version, so we need a bump in the major version.
	// See https://github.com/canonical/k8s-dqlite/blob/v1.1.12/pkg/kine/drivers/sqlite/sqlite.go#L169
	if _, err := txn.ExecContext(ctx, `DROP INDEX IF EXISTS kine_name_index`); err != nil {
		return err
	}

	if _, err := txn.ExecContext(ctx, `DROP INDEX IF EXISTS kine_name_prev_revision_uindex`); err != nil {
		return err
	}

	if _, err := txn.ExecContext(ctx, `CREATE UNIQUE INDEX IF NOT EXISTS k8s_dqlite_name_del_index ON kine (name ASC, id DESC, deleted)`); err != nil {
		return err
	}
	return nil
}
"#

/-- `/repo/pkg/backend/sqlite/schema.go:115-126` -/
go_func f_hasTable r#"func hasTable(ctx context.Context, txn *sql.Tx, tableName string) (bool, error) {
	// FIXME: why we can't use `pragma_table_list()`? Is dqlite/sqlite using
	// a very old sqlite version? `pragma_free_list()` works though...
	tableListSQL := `SELECT COUNT(*) FROM sqlite_master WHERE type = 'table' AND name = ?`
	row := txn.QueryRowContext(ctx, tableListSQL, tableName)
	var tableCount int
	if err := row.Scan(&tableCount); err != nil {
		return false, err
	}

	return tableCount != 0, nil
}
"#

/-- `/repo/pkg/backend/sqlite/driver.go:347-403` -/
go_func f_setup r#"func setup(ctx context.Context, db database.Interface) (SchemaVersion, error) {
	conn, err := db.Conn(ctx)
	if err != nil {
		return 0, err
	}
	defer conn.Close()

	// Optimistically ask for the user_version without starting a transaction
	var currentSchemaVersion SchemaVersion
	row := conn.QueryRowContext(ctx, "PRAGMA user_version")
	if err := row.Scan(&currentSchemaVersion); err != nil {
		return 0, err
	}

	if err := currentSchemaVersion.CompatibleWith(databaseSchemaVersion); err != nil {
		// TODO: add a migration path for this case
		// For now we will remain on the old schema version
		return currentSchemaVersion, nil
	}
	if currentSchemaVersion >= databaseSchemaVersion {
		return currentSchemaVersion, nil
	}

	txn, err := conn.BeginTx(ctx, nil)
	if err != nil {
		return 0, err
	}
	defer txn.Rollback()

	row = txn.QueryRowContext(ctx, `PRAGMA user_version`)
	if err := row.Scan(&currentSchemaVersion); err != nil {
		return 0, err
	}

	if err := currentSchemaVersion.CompatibleWith(databaseSchemaVersion); err != nil {
		return 0, err
	}

	if currentSchemaVersion >= databaseSchemaVersion {
		return currentSchemaVersion, nil
	}

	if currentSchemaVersion == NewSchemaVersion(0, 0) {
		if err := applySchemaV0_1(ctx, txn); err != nil {
			return currentSchemaVersion, fmt.Errorf("failed to apply schema v0.1: %w", err)
		}
		if err := applySchemaV1_0(ctx, txn); err != nil {
			return currentSchemaVersion, fmt.Errorf("failed to apply schema v0.2: %w", err)
		}
		query := fmt.Sprintf("PRAGMA user_version = %d", databaseSchemaVersion)
		if _, err := txn.ExecContext(ctx, query); err != nil {
			return currentSchemaVersion, fmt.Errorf("failed to set user version: %w", err)
		}
	}

	return currentSchemaVersion, txn.Commit()
}
"#

/-- `/repo/pkg/backend/sqlite/driver.go:293-341` -/
go_func f_NewDriver r#"func NewDriver(ctx context.Context, config *DriverConfig) (*Driver, error) {
	const retryAttempts = 300

	if config == nil {
		return nil, errors.New("config cannot be nil")
	}
	if config.DB == nil {
		return nil, errors.New("db cannot be nil")
	}
	if config.Retry == nil {
		config.Retry = func(err error) bool {
			var e sqlite3.Error
			if errors.As(err, &e) {
				return e.Code == sqlite3.ErrBusy
			}
			return false
		}
	}

	var err error
	var currentSchemaVersion SchemaVersion
	for i := 0; i < retryAttempts; i++ {
		currentSchemaVersion, err = setup(ctx, config.DB)
		if err == nil {
			break
		}

		if errors.Is(err, ErrIncompatibleVersion) {
			// do not attempt a retry in case of incompatible versions
			return nil, err
		}

		logrus.Errorf("failed to setup db: %v", err)
		select {
		case <-ctx.Done():
			return nil, ctx.Err()
		case <-time.After(time.Second):
		}
	}

	if err != nil {
		return nil, err // Return the last error if all retries fail
	}

	return &Driver{
		config:               config,
		currentSchemaVersion: currentSchemaVersion,
	}, nil
}
"#

end Verif.GoText.Schema
