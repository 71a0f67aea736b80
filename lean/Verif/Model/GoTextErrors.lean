import Verif.Model.GoQuote
/-!
# Source text (Errors)

Generated by `/verif/tools/gotext.py`; the literals are byte-for-byte copies of functions in `/repo` (`tools/gotext.py --check` compares them).
-/

namespace Verif.GoText.Errors

open Verif.Go

/-- `/repo/pkg/backend/dqlite/driver.go:67-95` -/
go_func f_dqliteRetry r#"func dqliteRetry(err error) bool {
	var e driver.Error

	if errors.As(err, &e) {
		return e.Code == driver.ErrBusy
	}

	if errors.Is(err, sqlite3.ErrLocked) || errors.Is(err, sqlite3.ErrBusy) {
		return true
	}

	if strings.Contains(err.Error(), "database is locked") {
		return true
	}

	if strings.Contains(err.Error(), "cannot start a transaction within a transaction") {
		return true
	}

	if strings.Contains(err.Error(), "bad connection") {
		return true
	}

	if strings.Contains(err.Error(), "checkpoint in progress") {
		return true
	}

	return false
}
"#

/-- `/repo/pkg/backend/sqlite/metrics.go:29-34` -/
go_func f_errorToResultLabel r#"func errorToResultLabel(err error) string {
	if err != nil {
		return "fail"
	}
	return "success"
}
"#

/-- `/repo/pkg/backend/sqlite/metrics.go:36-38` -/
go_func f_recordTxResult r#"func recordTxResult(txName string, err error) {
	metricsTxResult.WithLabelValues(txName, errorToResultLabel(err)).Inc()
}
"#

/-- `/repo/pkg/backend/sqlite/metrics.go:40-44` -/
go_func f_recordOpResult r#"func recordOpResult(txName string, err error, startTime time.Time) {
	resultLabel := errorToResultLabel(err)
	metricsOpLatency.WithLabelValues(txName, resultLabel).Observe(float64(time.Since(startTime) / time.Second))
	metricsOpResult.WithLabelValues(txName, resultLabel).Inc()
}
"#

end Verif.GoText.Errors
