#!/usr/bin/env python3
"""Copies functions of /repo verbatim into lean/Verif/Model/GoText*.lean. With --check: fail if a committed module differs."""
import re, sys
FILES = {
 'Limited': [
  ('pkg/limited/create.go', ['isCreate', 'create']),
  ('pkg/limited/update.go', ['isUpdate', 'update']),
  ('pkg/limited/delete.go', ['isDelete', 'delete']),
  ('pkg/limited/compact.go', ['isCompact', 'compact']),
  ('pkg/limited/get.go', ['get']),
  ('pkg/limited/list.go', ['list']),
  ('pkg/limited/limited.go', ['Range', 'txnHeader', 'Txn']),
  ('pkg/limited/server.go', ['KVServerBridge.Range', 'toKVs', 'toKV', 'Put', 'DeleteRange', 'KVServerBridge.Txn', 'Compact', 'unsupported']),
  ('pkg/limited/lease.go', ['LeaseGrant', 'LeaseRevoke', 'LeaseKeepAlive', 'LeaseTimeToLive', 'LeaseLeases']),
 ],
 'Backend': [
  ('pkg/backend/internal/backend/backend.go', ['compactStart', 'DoCompact', 'GetCompactRevision', 'List', 'Count', 'Create', 'Delete', 'Update', 'DbSize']),
  ('pkg/backend/internal/backend/utils.go', ['ScanAll', 'scanKeyValue', 'scanEvent', 'appendEvents']),
 ],
 'Driver': [
  ('pkg/backend/sqlite/driver.go', ['query', 'execute', 'Count', 'Create', 'Update', 'Delete', 'Compact', 'tryCompact', 'GetCompactRevision',
     'DeleteRevision', 'List', 'ListTTL', 'CurrentRevision', 'AfterPrefix', 'After', 'GetSize']),
 ],
 'Batched': [
  ('pkg/database/batched.go', ['BeginTx', 'ExecContext', 'run', 'execQueue', 'Close', 'exec', 'LastInsertId', 'RowsAffected']),
 ],
 'Watch': [
  ('pkg/backend/internal/backend/watcher.go', ['publish', 'update', 'Watch', 'initialEvents', 'Unwatch', 'notifyWatcherPoll', 'poll', 'publishEvents',
     'getLatestEvents', 'WatcherGroup']),
 ],
 'Stream': [
  ('pkg/limited/watch.go', ['Watch', 'ServeRequests', 'ServeUpdates', 'sendUpdates', 'ServeProgress', 'sendProgress', 'Create', 'Close', 'RequestProgress']),
 ],
 'Prepared': [
  ('pkg/database/prepared.go', ['preparedDb.ExecContext', 'preparedDb.QueryContext', 'preparedDb.PrepareContext', 'prepare', 'Conn', 'BeginTx', 'Close',
     'preparedTx.PrepareContext', 'preparedTx.ExecContext', 'preparedTx.QueryContext']),
 ],
 'Ttl': [
  ('pkg/backend/internal/backend/ttl.go', ['ttl']),
 ],
 'Schema': [
  ('pkg/backend/sqlite/schema.go', ['NewSchemaVersion', 'Major', 'Minor', 'CompatibleWith', 'applySchemaV0_1', 'applySchemaV1_0', 'hasTable']),
  ('pkg/backend/sqlite/driver.go', ['setup', 'NewDriver']),
 ],
 'Client': [
  ('pkg/client/client.go', ['List', 'Get', 'Put', 'Create', 'Update', 'Delete']),
  ('pkg/migrator/util.go', ['putKey']),
  ('pkg/migrator/migrator.go', ['keyFileName', 'dataFileName', 'BackupEtcd', 'RestoreToDqlite', 'BackupDqlite', 'RestoreToEtcd']),
 ],
 'Life': [
  ('pkg/backend/internal/backend/backend.go', ['Start', 'Stop', 'Backend.Close', 'startWatch']),
 ],
 'Errors': [
  ('pkg/backend/dqlite/driver.go', ['dqliteRetry']),
  ('pkg/backend/sqlite/metrics.go', ['errorToResultLabel', 'recordTxResult', 'recordOpResult']),
 ],
 'Dqlite': [
  ('pkg/backend/dqlite/driver.go', ['Compact', 'isLocalNodeLeader']),
 ],
}
def find(src, name):
    base = name.split('.')[-1]
    pat = r'^func (\((\w+) \*?(\w+)(?:\[\w+\])?\) )?' + base + r'[\[(]'
    ms = [m for m in re.finditer(pat, src, re.M) if '.' not in name or m.group(3) == name.split('.')[0]]
    assert len(ms) == 1, (name, len(ms))
    start = ms[0].start()
    end = src.index('\n}\n', start) + 3
    one = src.index('\n', start) + 1
    if src[start:one].rstrip().endswith('}'): end = one
    return start, end
def module(mod):
    out = [f'''import Verif.Model.GoQuote
/-!
# Source text ({mod})

Generated by `/verif/tools/gotext.py`; the literals are byte-for-byte copies of functions in `/repo` (`tools/gotext.py --check` compares them).
-/

namespace Verif.GoText.{mod}

open Verif.Go
''']
    for path, names in FILES[mod]:
        src = open('/repo/' + path).read()
        for n in names:
            a, b = find(src, n)
            t = src[a:b]
            assert '"#' not in t
            lo, hi = src.count('\n', 0, a) + 1, src.count('\n', 0, b)
            out.append(f'/-- `/repo/{path}:{lo}-{hi}` -/\ngo_func f_{n.replace(".", "_")} r#"{t}"#\n')
    out.append(f'end Verif.GoText.{mod}\n')
    return '\n'.join(out)
bad = False
for mod in FILES:
    path = f'/verif/lean/Verif/Model/GoText{mod}.lean'
    text = module(mod)
    if '--check' in sys.argv:
        ok = open(path).read() == text
        bad |= not ok
        print(path, 'is identical to the functions in /repo' if ok else 'DIFFERS')
    else:
        open(path, 'w').write(text)
sys.exit(1 if bad else 0)
