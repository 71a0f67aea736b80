import Verif.Model.GoQuote
/-!
# Source text (Prepared)

Generated by `/verif/tools/gotext.py`; the literals are byte-for-byte copies of functions in `/repo` (`tools/gotext.py --check` compares them).
-/

namespace Verif.GoText.Prepared

open Verif.Go

/-- `/repo/pkg/database/prepared.go:39-51` -/
go_func f_preparedDb_ExecContext r#"func (db *preparedDb[T]) ExecContext(ctx context.Context, query string, args ...any) (result sql.Result, err error) {
	ctx, span := otelTracer.Start(ctx, "DB.ExecContext")
	defer func() {
		span.RecordError(err)
		span.End()
	}()

	stmt, err := db.prepare(ctx, query)
	if err != nil {
		return nil, err
	}
	return stmt.ExecContext(ctx, args...)
}
"#

/-- `/repo/pkg/database/prepared.go:53-65` -/
go_func f_preparedDb_QueryContext r#"func (db *preparedDb[T]) QueryContext(ctx context.Context, query string, args ...any) (rows *sql.Rows, err error) {
	ctx, span := otelTracer.Start(ctx, "DB.QueryContext")
	defer func() {
		span.RecordError(err)
		span.End()
	}()

	stmt, err := db.prepare(ctx, query)
	if err != nil {
		return nil, err
	}
	return stmt.QueryContext(ctx, args...)
}
"#

/-- `/repo/pkg/database/prepared.go:67-69` -/
go_func f_preparedDb_PrepareContext r#"func (db *preparedDb[T]) PrepareContext(ctx context.Context, query string) (stmt *sql.Stmt, err error) {
	return db.underlying.PrepareContext(ctx, query)
}
"#

/-- `/repo/pkg/database/prepared.go:71-106` -/
go_func f_prepare r#"func (db *preparedDb[T]) prepare(ctx context.Context, query string) (stmt *sql.Stmt, err error) {
	ctx, span := otelTracer.Start(ctx, fmt.Sprintf("%s.prepare", otelName))
	defer func() {
		span.RecordError(err)
		span.End()
	}()

	db.mu.RLock()
	stmt = db.cache[query]
	db.mu.RUnlock()
	if stmt != nil {
		return stmt, nil
	}

	db.mu.Lock()
	defer db.mu.Unlock()

	if db.underlying == nil {
		return nil, errDBClosed
	}

	// Given that some time has passed since the unlock of the read lock, and the lock of the
	// write lock, another goroutine might have already prepared this query, so we should check
	// again to avoid preparing the same query twice.
	stmt = db.cache[query]
	if stmt != nil {
		return stmt, nil
	}

	prepared, err := db.PrepareContext(ctx, query)
	if err != nil {
		return nil, err
	}
	db.cache[query] = prepared
	return prepared, nil
}
"#

/-- `/repo/pkg/database/prepared.go:108-110` -/
go_func f_Conn r#"func (db *preparedDb[T]) Conn(ctx context.Context) (*sql.Conn, error) {
	return db.underlying.Conn(ctx)
}
"#

/-- `/repo/pkg/database/prepared.go:112-122` -/
go_func f_BeginTx r#"func (db *preparedDb[T]) BeginTx(ctx context.Context, opts *sql.TxOptions) (Transaction, error) {
	tx, err := db.underlying.BeginTx(ctx, opts)
	if err != nil {
		return nil, err
	}

	return &preparedTx[T]{
		Transaction: tx,
		db:          db,
	}, nil
}
"#

/-- `/repo/pkg/database/prepared.go:124-142` -/
go_func f_Close r#"func (db *preparedDb[T]) Close() error {
	db.mu.Lock()
	defer db.mu.Unlock()

	errs := []error{}
	for _, stmt := range db.cache {
		if err := stmt.Close(); err != nil {
			errs = append(errs, err)
		}
	}
	db.cache = nil

	if err := db.underlying.Close(); err != nil {
		errs = append(errs, err)
	}
	db.underlying = nil

	return errors.Join(errs...)
}
"#

/-- `/repo/pkg/database/prepared.go:149-155` -/
go_func f_preparedTx_PrepareContext r#"func (tx *preparedTx[T]) PrepareContext(ctx context.Context, query string) (*sql.Stmt, error) {
	stmt, err := tx.db.prepare(ctx, query)
	if err != nil {
		return nil, err
	}
	return tx.StmtContext(ctx, stmt), nil
}
"#

/-- `/repo/pkg/database/prepared.go:157-163` -/
go_func f_preparedTx_ExecContext r#"func (tx *preparedTx[T]) ExecContext(ctx context.Context, query string, args ...any) (sql.Result, error) {
	stmt, err := tx.PrepareContext(ctx, query)
	if err != nil {
		return nil, err
	}
	return stmt.ExecContext(ctx, args...)
}
"#

/-- `/repo/pkg/database/prepared.go:165-172` -/
go_func f_preparedTx_QueryContext r#"func (tx *preparedTx[T]) QueryContext(ctx context.Context, query string, args ...any) (*sql.Rows, error) {
	stmt, err := tx.PrepareContext(ctx, query)
	if err != nil {
		return nil, err
	}

	return stmt.QueryContext(ctx, args...)
}
"#

end Verif.GoText.Prepared
