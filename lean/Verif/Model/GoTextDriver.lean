import Verif.Model.GoQuote
/-!
# Source text (Driver)

Generated by `/verif/tools/gotext.py`; the literals are byte-for-byte copies of functions in `/repo` (`tools/gotext.py --check` compares them).
-/

namespace Verif.GoText.Driver

open Verif.Go

/-- `/repo/pkg/backend/sqlite/driver.go:405-440` -/
go_func f_query r#"func (d *Driver) query(ctx context.Context, txName, query string, args ...interface{}) (rows *sql.Rows, err error) {
	ctx, span := otelTracer.Start(ctx, fmt.Sprintf("%s.query", otelName))
	defer func() {
		span.RecordError(err)
		span.End()
	}()
	span.SetAttributes(
		attribute.String("tx_name", txName),
	)

	start := time.Now()
	retryCount := 0
	defer func() {
		if err != nil {
			err = fmt.Errorf("query (try: %d): %w", retryCount, err)
		}
		recordOpResult(txName, err, start)
	}()
	for ; retryCount < maxRetries; retryCount++ {
		if retryCount == 0 {
			logrus.Tracef("%s (try: %d) %v", txName, retryCount, args)
		} else {
			logrus.Debugf("%s (try: %d) %v", txName, retryCount, args)
		}
		rows, err = d.config.DB.QueryContext(ctx, query, args...)
		if err == nil {
			break
		}
		if !d.config.Retry(err) {
			break
		}
	}

	recordTxResult(txName, err)
	return rows, err
}
"#

/-- `/repo/pkg/backend/sqlite/driver.go:442-478` -/
go_func f_execute r#"func (d *Driver) execute(ctx context.Context, txName, query string, args ...interface{}) (result sql.Result, err error) {
	ctx, span := otelTracer.Start(ctx, fmt.Sprintf("%s.execute", otelName))
	defer func() {
		span.RecordError(err)
		span.End()

	}()
	span.SetAttributes(
		attribute.String("tx_name", txName),
	)

	start := time.Now()
	retryCount := 0
	defer func() {
		if err != nil {
			err = fmt.Errorf("exec (try: %d): %w", retryCount, err)
		}
		recordOpResult(txName, err, start)
	}()
	for ; retryCount < maxRetries; retryCount++ {
		if retryCount > 2 {
			logrus.Debugf("%s (try: %d) %v", txName, retryCount, args)
		} else {
			logrus.Tracef("%s (try: %d) %v", txName, retryCount, args)
		}
		result, err = d.config.DB.ExecContext(ctx, query, args...)
		if err == nil {
			break
		}
		if !d.config.Retry(err) {
			break
		}
	}

	recordTxResult(txName, err)
	return result, err
}
"#

/-- `/repo/pkg/backend/sqlite/driver.go:480-507` -/
go_func f_Count r#"func (d *Driver) Count(ctx context.Context, key, rangeEnd []byte, revision int64) (int64, error) {
	if len(rangeEnd) == 0 {
		rangeEnd = append(key, 0)
	}
	query := countRevisionSQL
	if d.currentSchemaVersion == databaseSchemaVersion {
		query = countRevisionSQLV1_0
	}

	rows, err := d.query(ctx, "count_revision", query, key, rangeEnd, revision)
	if err != nil {
		return 0, err
	}
	defer rows.Close()

	if !rows.Next() {
		if err := rows.Err(); err != nil {
			return 0, err
		}
		return 0, sql.ErrNoRows
	}

	var id int64
	if err := rows.Scan(&id); err != nil {
		return 0, err
	}
	return id, err
}
"#

/-- `/repo/pkg/backend/sqlite/driver.go:509-534` -/
go_func f_Create r#"func (d *Driver) Create(ctx context.Context, key, value []byte, ttl int64) (rev int64, succeeded bool, err error) {
	ctx, span := otelTracer.Start(ctx, fmt.Sprintf("%s.Create", otelName))

	defer func() {
		span.RecordError(err)
		span.SetAttributes(attribute.Int64("revision", rev))
		span.End()
	}()
	span.SetAttributes(
		attribute.String("key", string(key)),
		attribute.Int64("ttl", ttl),
	)
	createCnt.Add(ctx, 1)

	result, err := d.execute(ctx, "create_sql", createSQL, key, ttl, value, key)
	if err != nil {
		return 0, false, err
	}
	if insertCount, err := result.RowsAffected(); err != nil {
		return 0, false, err
	} else if insertCount == 0 {
		return 0, false, nil
	}
	rev, err = result.LastInsertId()
	return rev, true, err
}
"#

/-- `/repo/pkg/backend/sqlite/driver.go:536-555` -/
go_func f_Update r#"func (d *Driver) Update(ctx context.Context, key, value []byte, preRev, ttl int64) (rev int64, updated bool, err error) {
	ctx, span := otelTracer.Start(ctx, fmt.Sprintf("%s.Update", otelName))
	defer func() {
		span.RecordError(err)
		span.End()
	}()

	updateCnt.Add(ctx, 1)
	result, err := d.execute(ctx, "update_sql", updateSQL, key, ttl, value, key, preRev)
	if err != nil {
		return 0, false, err
	}
	if insertCount, err := result.RowsAffected(); err != nil {
		return 0, false, err
	} else if insertCount == 0 {
		return 0, false, nil
	}
	rev, err = result.LastInsertId()
	return rev, true, err
}
"#

/-- `/repo/pkg/backend/sqlite/driver.go:557-580` -/
go_func f_Delete r#"func (d *Driver) Delete(ctx context.Context, key []byte, revision int64) (rev int64, deleted bool, err error) {
	deleteCnt.Add(ctx, 1)
	ctx, span := otelTracer.Start(ctx, fmt.Sprintf("%s.Delete", otelName))
	defer func() {
		span.RecordError(err)
		span.SetAttributes(attribute.Int64("revision", rev))
		span.SetAttributes(attribute.Bool("deleted", deleted))
		span.End()
	}()
	span.SetAttributes(attribute.String("key", string(key)))

	result, err := d.execute(ctx, "delete_sql", deleteSQL, key, revision)
	if err != nil {
		return 0, false, err
	}
	if insertCount, err := result.RowsAffected(); err != nil {
		return 0, false, err
	} else if insertCount == 0 {
		return 0, false, nil
	}

	rev, err = result.LastInsertId()
	return rev, true, err
}
"#

/-- `/repo/pkg/backend/sqlite/driver.go:585-614` -/
go_func f_Compact r#"func (d *Driver) Compact(ctx context.Context, revision int64) (err error) {
	compactCnt.Add(ctx, 1)
	ctx, span := otelTracer.Start(ctx, fmt.Sprintf("%s.Compact", otelName))
	defer func() {
		span.RecordError(err)
		span.End()
	}()
	compactStart, currentRevision, err := d.GetCompactRevision(ctx)
	if err != nil {
		return err
	}
	span.SetAttributes(
		attribute.Int64("compact_start", compactStart),
		attribute.Int64("current_revision", currentRevision), attribute.Int64("revision", revision),
	)
	if compactStart >= revision {
		return nil // Nothing to compact.
	}
	if revision > currentRevision {
		revision = currentRevision
	}

	for retryCount := 0; retryCount < maxRetries; retryCount++ {
		err = d.tryCompact(ctx, compactStart, revision)
		if err == nil || !d.config.Retry(err) {
			break
		}
	}
	return err
}
"#

/-- `/repo/pkg/backend/sqlite/driver.go:616-673` -/
go_func f_tryCompact r#"func (d *Driver) tryCompact(ctx context.Context, start, end int64) (err error) {
	ctx, span := otelTracer.Start(ctx, fmt.Sprintf("%s.tryCompact", otelName))
	defer func() {
		span.RecordError(err)
		span.End()
	}()
	span.SetAttributes(attribute.Int64("start", start), attribute.Int64("end", end))
	compactBatchCnt.Add(ctx, 1)

	tx, err := d.config.DB.BeginTx(ctx, nil)
	if err != nil {
		return err
	}
	defer func() {
		if err := tx.Rollback(); err != nil {
			if errors.Is(err, sql.ErrTxDone) {
				return
			}
			logrus.WithError(err).Warning("can't rollback compaction")
		}
	}()

	// This query adds `created = 0` as a condition
	// to mitigate a bug in vXXX where newly created
	// keys had `prev_revision = max(id)` instead of 0.
	// Even with the bug fixed, we still need to check
	// for that in older rows and if older peers are
	// still running. Given that we are not yet using
	// an index, it won't change much in performance
	// however, it should be included in a covering
	// index if ever necessary.
	if _, err = tx.ExecContext(ctx, `
		DELETE FROM kine
		WHERE id IN (
			SELECT prev_revision
			FROM kine
			WHERE name != 'compact_rev_key'
				AND created = 0
				AND prev_revision != 0
				AND ? < id AND id <= ?
		)
	`, start, end); err != nil {
		return err
	}

	if _, err = tx.ExecContext(ctx, `
		DELETE FROM kine
		WHERE deleted = 1
			AND ? < id AND id <= ?
	`, start, end); err != nil {
		return err
	}

	if _, err = tx.ExecContext(ctx, updateCompactSQL, end); err != nil {
		return err
	}
	return tx.Commit()
}
"#

/-- `/repo/pkg/backend/sqlite/driver.go:675-706` -/
go_func f_GetCompactRevision r#"func (d *Driver) GetCompactRevision(ctx context.Context) (int64, int64, error) {
	getCompactRevCnt.Add(ctx, 1)
	ctx, span := otelTracer.Start(ctx, fmt.Sprintf("%s.get_compact_revision", otelName))
	var compact, target sql.NullInt64
	start := time.Now()
	var err error
	defer func() {
		span.RecordError(err)
		recordOpResult("revision_interval_sql", err, start)
		recordTxResult("revision_interval_sql", err)
		span.End()
	}()

	rows, err := d.query(ctx, "revision_interval_sql", revisionIntervalSQL)
	if err != nil {
		return 0, 0, err
	}
	defer rows.Close()

	if !rows.Next() {
		if err := rows.Err(); err != nil {
			return 0, 0, err
		}
		return 0, 0, fmt.Errorf("cannot get compact revision: aggregate query returned no rows")
	}

	if err := rows.Scan(&compact, &target); err != nil {
		return 0, 0, err
	}
	span.SetAttributes(attribute.Int64("compact", compact.Int64), attribute.Int64("target", target.Int64))
	return compact.Int64, target.Int64, err
}
"#

/-- `/repo/pkg/backend/sqlite/driver.go:708-720` -/
go_func f_DeleteRevision r#"func (d *Driver) DeleteRevision(ctx context.Context, revision int64) error {
	var err error
	deleteRevCnt.Add(ctx, 1)
	ctx, span := otelTracer.Start(ctx, fmt.Sprintf("%s.delete_revision", otelName))
	defer func() {
		span.RecordError(err)
		span.End()
	}()
	span.SetAttributes(attribute.Int64("revision", revision))

	_, err = d.execute(ctx, "delete_rev_sql", deleteRevSQL, revision)
	return err
}
"#

/-- `/repo/pkg/backend/sqlite/driver.go:722-736` -/
go_func f_List r#"func (d *Driver) List(ctx context.Context, key, rangeEnd []byte, limit, revision int64) (*sql.Rows, error) {
	if len(rangeEnd) == 0 {
		rangeEnd = append(key, 0)
	}
	sql := listSQL
	if d.currentSchemaVersion == databaseSchemaVersion {
		sql = listSqlV1_0
	}

	if limit > 0 {
		sql = fmt.Sprintf("%s LIMIT ?", sql)
		return d.query(ctx, "list_revision_start_sql_limit", sql, key, rangeEnd, revision, limit)
	}
	return d.query(ctx, "list_revision_start_sql", sql, key, rangeEnd, revision)
}
"#

/-- `/repo/pkg/backend/sqlite/driver.go:738-740` -/
go_func f_ListTTL r#"func (d *Driver) ListTTL(ctx context.Context, revision int64) (*sql.Rows, error) {
	return d.query(ctx, "ttl_sql", ttlSQL, revision)
}
"#

/-- `/repo/pkg/backend/sqlite/driver.go:742-771` -/
go_func f_CurrentRevision r#"func (d *Driver) CurrentRevision(ctx context.Context) (int64, error) {
	var id int64
	var err error

	currentRevCnt.Add(ctx, 1)
	ctx, span := otelTracer.Start(ctx, fmt.Sprintf("%s.current_revision", otelName))
	defer func() {
		span.RecordError(err)
		span.End()
	}()

	rows, err := d.query(ctx, "rev_sql", revSQL)
	if err != nil {
		return 0, err
	}
	defer rows.Close()

	if !rows.Next() {
		if err := rows.Err(); err != nil {
			return 0, err
		}
		return 0, fmt.Errorf("can't get current revision: aggregate query returned empty set")
	}

	if err := rows.Scan(&id); err != nil {
		return 0, err
	}
	span.SetAttributes(attribute.Int64("id", id))
	return id, nil
}
"#

/-- `/repo/pkg/backend/sqlite/driver.go:773-778` -/
go_func f_AfterPrefix r#"func (d *Driver) AfterPrefix(ctx context.Context, key, rangeEnd []byte, startRevision, endRevision int64) (*sql.Rows, error) {
	if len(rangeEnd) == 0 {
		rangeEnd = append(key, 0)
	}
	return d.query(ctx, "after_sql_prefix", afterSQLPrefix, key, rangeEnd, startRevision, endRevision)
}
"#

/-- `/repo/pkg/backend/sqlite/driver.go:780-787` -/
go_func f_After r#"func (d *Driver) After(ctx context.Context, rev, limit int64) (*sql.Rows, error) {
	sql := afterSQL
	if limit > 0 {
		sql = fmt.Sprintf("%s LIMIT ?", sql)
		return d.query(ctx, "after_sql_limit", sql, rev, limit)
	}
	return d.query(ctx, "after_sql", sql, rev)
}
"#

/-- `/repo/pkg/backend/sqlite/driver.go:789-808` -/
go_func f_GetSize r#"func (d *Driver) GetSize(ctx context.Context) (int64, error) {
	rows, err := d.query(ctx, "get_size_sql", getSizeSQL)
	if err != nil {
		return 0, err
	}
	defer rows.Close()

	if !rows.Next() {
		if err := rows.Err(); err != nil {
			return 0, err
		}
		return 0, sql.ErrNoRows
	}

	var size int64
	if err := rows.Scan(&size); err != nil {
		return 0, err
	}
	return size, nil
}
"#

end Verif.GoText.Driver
