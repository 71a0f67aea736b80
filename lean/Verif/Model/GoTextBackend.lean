import Verif.Model.GoQuote
/-!
# Source text (Backend)

Generated by `/verif/tools/gotext.py`; the literals are byte-for-byte copies of functions in `/repo` (`tools/gotext.py --check` compares them).
-/

namespace Verif.GoText.Backend

open Verif.Go

/-- `/repo/pkg/backend/internal/backend/backend.go:136-179` -/
go_func f_compactStart r#"func (s *Backend) compactStart(ctx context.Context) error {
	currentRevision, err := s.Driver.CurrentRevision(ctx)
	if err != nil {
		return err
	}

	rows, err := s.Driver.AfterPrefix(ctx, []byte("compact_rev_key"), []byte("compact_rev_key\x00"), 0, currentRevision)
	if err != nil {
		return err
	}

	events, err := ScanAll(rows, scanEvent)
	if err != nil {
		return err
	}

	if len(events) == 0 {
		_, _, err := s.Create(ctx, []byte("compact_rev_key"), nil, 0)
		return err
	} else if len(events) == 1 {
		return nil
	}

	// this is to work around a bug in which we ended up with two compact_rev_key rows
	maxRev := int64(0)
	maxID := int64(0)
	for _, event := range events {
		if event.PrevKv != nil && event.PrevKv.ModRevision > maxRev {
			maxRev = event.PrevKv.ModRevision
			maxID = event.Kv.ModRevision
		}
	}

	for _, event := range events {
		if event.Kv.ModRevision == maxID {
			continue
		}
		if err := s.Driver.DeleteRevision(ctx, event.Kv.ModRevision); err != nil {
			return err
		}
	}

	return nil
}
"#

/-- `/repo/pkg/backend/internal/backend/backend.go:183-222` -/
go_func f_DoCompact r#"func (s *Backend) DoCompact(ctx context.Context) (err error) {
	ctx, span := backendOtelTracer.Start(ctx, fmt.Sprintf("%s.DoCompact", backendOtelName))
	backendCompactCnt.Add(ctx, 1)
	defer func() {
		span.RecordError(err)
		span.End()
	}()
	if err := s.compactStart(ctx); err != nil {
		return fmt.Errorf("failed to initialise compaction: %v", err)
	}

	// When executing compaction as a background operation
	// it's best not to take too much time away from query
	// operation and similar. As such, we do compaction in
	// small batches. Given that this logic runs every second,
	// on regime it should take usually just a couple batches
	// to keep the pace.
	start, target, err := s.Driver.GetCompactRevision(ctx)
	if err != nil {
		return err
	}
	span.SetAttributes(attribute.Int64("start", start))
	// NOTE: Upstream is ignoring the last 1000 revisions, however that causes the following CNCF conformance test to fail.
	// This is because of low activity, where the created list is part of the last 1000 revisions and is not compacted.
	// Link to failing test: https://github.com/kubernetes/kubernetes/blob/f2cfbf44b1fb482671aedbfff820ae2af256a389/test/e2e/apimachinery/chunking.go#L144
	// To address this, we only ignore the last 100 revisions instead
	target -= SupersededCount
	span.SetAttributes(attribute.Int64("target", target))
	for start < target {
		batchRevision := start + compactBatchSize
		if batchRevision > target {
			batchRevision = target
		}
		if err := s.Driver.Compact(ctx, batchRevision); err != nil {
			return err
		}
		start = batchRevision
	}
	return nil
}
"#

/-- `/repo/pkg/backend/internal/backend/backend.go:224-226` -/
go_func f_GetCompactRevision r#"func (s *Backend) GetCompactRevision(ctx context.Context) (int64, int64, error) {
	return s.Driver.GetCompactRevision(ctx)
}
"#

/-- `/repo/pkg/backend/internal/backend/backend.go:228-264` -/
go_func f_List r#"func (s *Backend) List(ctx context.Context, key, rangeEnd []byte, limit, revision int64) (int64, []*limited.KeyValue, error) {
	var err error

	ctx, span := backendOtelTracer.Start(ctx, fmt.Sprintf("%s.List", backendOtelName))
	defer func() {
		span.RecordError(err)
		span.End()
	}()
	span.SetAttributes(
		attribute.String("key", string(key)),
		attribute.String("rangeEnd", string(rangeEnd)),
		attribute.Int64("limit", limit),
		attribute.Int64("revision", revision),
	)

	compactRevision, currentRevision, err := s.Driver.GetCompactRevision(ctx)
	if err != nil {
		return 0, nil, err
	}
	if revision == 0 || revision > currentRevision {
		revision = currentRevision
	} else if revision < compactRevision {
		return currentRevision, nil, limited.ErrCompacted
	}

	rows, err := s.Driver.List(ctx, key, rangeEnd, limit, revision)
	if err != nil {
		return 0, nil, err
	}

	result, err := ScanAll(rows, scanKeyValue)
	if err != nil {
		return 0, nil, err
	}

	return currentRevision, result, err
}
"#

/-- `/repo/pkg/backend/internal/backend/backend.go:306-333` -/
go_func f_Count r#"func (s *Backend) Count(ctx context.Context, key, rangeEnd []byte, revision int64) (int64, int64, error) {
	var err error
	ctx, span := backendOtelTracer.Start(ctx, fmt.Sprintf("%s.Count", backendOtelName))
	defer func() {
		span.RecordError(err)
		span.End()
	}()
	span.SetAttributes(
		attribute.String("key", string(key)),
		attribute.String("rangeEnd", string(rangeEnd)),
		attribute.Int64("revision", revision),
	)

	compactRevision, currentRevision, err := s.Driver.GetCompactRevision(ctx)
	if err != nil {
		return 0, 0, err
	}
	if revision == 0 || revision > currentRevision {
		revision = currentRevision
	} else if revision < compactRevision {
		return currentRevision, 0, limited.ErrCompacted
	}
	count, err := s.Driver.Count(ctx, key, rangeEnd, revision)
	if err != nil {
		return 0, 0, err
	}
	return currentRevision, count, nil
}
"#

/-- `/repo/pkg/backend/internal/backend/backend.go:335-344` -/
go_func f_Create r#"func (s *Backend) Create(ctx context.Context, key, value []byte, lease int64) (int64, bool, error) {
	rev, created, err := s.Driver.Create(ctx, key, value, lease)
	if err != nil {
		return 0, false, err
	}
	if created {
		s.notifyWatcherPoll(rev)
	}
	return rev, created, nil
}
"#

/-- `/repo/pkg/backend/internal/backend/backend.go:346-355` -/
go_func f_Delete r#"func (s *Backend) Delete(ctx context.Context, key []byte, revision int64) (rev int64, deleted bool, err error) {
	rev, deleted, err = s.Driver.Delete(ctx, key, revision)
	if err != nil {
		return 0, false, err
	}
	if deleted {
		s.notifyWatcherPoll(rev)
	}
	return rev, deleted, nil
}
"#

/-- `/repo/pkg/backend/internal/backend/backend.go:357-366` -/
go_func f_Update r#"func (s *Backend) Update(ctx context.Context, key []byte, value []byte, prevRev, lease int64) (rev int64, updated bool, err error) {
	rev, updated, err = s.Driver.Update(ctx, key, value, prevRev, lease)
	if err != nil {
		return 0, false, err
	}
	if updated {
		s.notifyWatcherPoll(rev)
	}
	return rev, updated, nil
}
"#

/-- `/repo/pkg/backend/internal/backend/backend.go:368-378` -/
go_func f_DbSize r#"func (s *Backend) DbSize(ctx context.Context) (int64, error) {
	var err error
	ctx, span := backendOtelTracer.Start(ctx, fmt.Sprintf("%s.DbSize", backendOtelName))
	defer func() {
		span.RecordError(err)
		span.End()
	}()
	size, err := s.Driver.GetSize(ctx)
	span.SetAttributes(attribute.Int64("size", size))
	return size, err
}
"#

/-- `/repo/pkg/backend/internal/backend/utils.go:11-24` -/
go_func f_ScanAll r#"func ScanAll[T any](rows *sql.Rows, scanOne func(*sql.Rows) (T, error)) ([]T, error) {
	var result []T
	defer rows.Close()

	for rows.Next() {
		item, err := scanOne(rows)
		if err != nil {
			return nil, err
		}
		result = append(result, item)
	}

	return result, nil
}
"#

/-- `/repo/pkg/backend/internal/backend/utils.go:26-39` -/
go_func f_scanKeyValue r#"func scanKeyValue(rows *sql.Rows) (*limited.KeyValue, error) {
	kv := &limited.KeyValue{}
	err := rows.Scan(
		&kv.ModRevision,
		&kv.Key,
		&kv.CreateRevision,
		&kv.Lease,
		&kv.Value,
	)
	if err != nil {
		return nil, err
	}
	return kv, nil
}
"#

/-- `/repo/pkg/backend/internal/backend/utils.go:41-78` -/
go_func f_scanEvent r#"func scanEvent(rows *sql.Rows) (*limited.Event, error) {
	// Bundle in a single allocation
	row := &struct {
		event            limited.Event
		kv, prevKv       limited.KeyValue
		created, deleted bool
	}{}
	event := &row.event

	err := rows.Scan(
		&row.kv.ModRevision,
		&row.kv.Key,
		&row.created,
		&row.deleted,
		&row.kv.CreateRevision,
		&row.prevKv.ModRevision,
		&row.kv.Lease,
		&row.kv.Value,
		&row.prevKv.Value,
	)
	if err != nil {
		return nil, err
	}

	event.Kv = &row.kv
	if row.deleted {
		row.event.Type = mvccpb.DELETE
	}
	if row.created {
		event.Kv.CreateRevision = event.Kv.ModRevision
	} else {
		event.PrevKv = &row.prevKv
		event.PrevKv.Key = event.Kv.Key
		event.PrevKv.CreateRevision = event.Kv.CreateRevision
		event.PrevKv.Lease = event.Kv.Lease
	}
	return event, nil
}
"#

/-- `/repo/pkg/backend/internal/backend/utils.go:80-87` -/
go_func f_appendEvents r#"func appendEvents(src, dst []*limited.Event, key, rangeEnd []byte) []*limited.Event {
	for _, event := range src {
		if bytes.Compare(key, event.Kv.Key) <= 0 && bytes.Compare(rangeEnd, event.Kv.Key) > 0 {
			dst = append(dst, event)
		}
	}
	return dst
}
"#

end Verif.GoText.Backend
