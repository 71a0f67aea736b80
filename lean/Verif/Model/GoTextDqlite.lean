import Verif.Model.GoQuote
/-!
# Source text (Dqlite)

Generated by `/verif/tools/gotext.py`; the literals are byte-for-byte copies of functions in `/repo` (`tools/gotext.py --check` compares them).
-/

namespace Verif.GoText.Dqlite

open Verif.Go

/-- `/repo/pkg/backend/dqlite/driver.go:55-65` -/
go_func f_Compact r#"func (d *Driver) Compact(ctx context.Context, revision int64) (err error) {
	// Skip the compaction if we're not the leader.
	isLeader, err := d.isLocalNodeLeader(ctx)
	if err != nil {
		logrus.WithError(err).Warning("couldn't determine whether the local node is the leader, allowing the compaction to proceed")
	} else if !isLeader {
		logrus.Trace("skipping compaction on follower node")
		return nil
	}
	return d.Driver.Compact(ctx, revision)
}
"#

/-- `/repo/pkg/backend/dqlite/driver.go:97-110` -/
go_func f_isLocalNodeLeader r#"func (d *Driver) isLocalNodeLeader(ctx context.Context) (bool, error) {
	client, err := d.app.Client(ctx)
	if err != nil {
		return false, fmt.Errorf("couldn't obtain dqlite client: %w", err)
	}
	defer client.Close()

	leader, err := client.Leader(ctx)
	if err != nil {
		return false, fmt.Errorf("couldn't obtain dqlite leader info: %w", err)
	}

	return d.app.ID() == leader.ID, nil
}
"#

end Verif.GoText.Dqlite
