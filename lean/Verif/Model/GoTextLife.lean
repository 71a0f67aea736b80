import Verif.Model.GoQuote
/-!
# Source text (Life)

Generated by `/verif/tools/gotext.py`; the literals are byte-for-byte copies of functions in `/repo` (`tools/gotext.py --check` compares them).
-/

namespace Verif.GoText.Life

open Verif.Go

/-- `/repo/pkg/backend/internal/backend/backend.go:85-113` -/
go_func f_Start r#"func (s *Backend) Start(startCtx context.Context) error {
	s.mu.Lock()
	defer s.mu.Unlock()

	if s.started {
		return nil
	}

	_, _, err := s.Create(startCtx, []byte("/registry/health"), []byte(`{"health":"true"}`), 0)
	if err != nil {
		return err
	}

	ctx, stop := context.WithCancel(context.Background())
	if err := s.startWatch(ctx); err != nil {
		stop()
		return err
	}

	s.wg.Add(1)
	go func() {
		defer s.wg.Done()
		s.ttl(ctx)
	}()

	s.stop = stop
	s.started = true
	return nil
}
"#

/-- `/repo/pkg/backend/internal/backend/backend.go:115-127` -/
go_func f_Stop r#"func (s *Backend) Stop() error {
	s.mu.Lock()

	if !s.started {
		return nil
	}
	s.stop()
	s.stop, s.started = nil, false
	s.mu.Unlock()

	s.wg.Wait()
	return nil
}
"#

/-- `/repo/pkg/backend/internal/backend/backend.go:129-134` -/
go_func f_Backend_Close r#"func (s *Backend) Close() error {
	stopErr := s.Stop()
	closeErr := s.Driver.Close()

	return errors.Join(stopErr, closeErr)
}
"#

/-- `/repo/pkg/backend/internal/backend/backend.go:266-304` -/
go_func f_startWatch r#"func (s *Backend) startWatch(ctx context.Context) error {
	if err := s.compactStart(ctx); err != nil {
		return err
	}

	pollInitialRevision, _, err := s.Driver.GetCompactRevision(ctx)
	if err != nil {
		return err
	}
	s.pollRevision = pollInitialRevision

	// start compaction and polling at the same time to watch starts
	// at the oldest revision, but compaction doesn't create gaps
	s.wg.Add(2)

	go func() {
		defer s.wg.Done()

		t := time.NewTicker(s.Config.CompactInterval)

		for {
			select {
			case <-ctx.Done():
				return
			case <-t.C:
				if err := s.DoCompact(ctx); err != nil {
					logrus.WithError(err).Trace("compaction failed")
				}
			}
		}
	}()

	go func() {
		defer s.wg.Done()
		s.poll(ctx)
	}()

	return nil
}
"#

end Verif.GoText.Life
