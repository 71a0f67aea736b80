#!/usr/bin/env python3
"""Copies the SQL statement texts of /repo/pkg/backend/sqlite/driver.go verbatim into
lean/Verif/Model/SqlText.lean.  With --check: fail if the committed module differs."""
import re, sys
src = open('/repo/pkg/backend/sqlite/driver.go').read()
line = lambda pos: src.count('\n', 0, pos) + 1
out = ['''/-!
# The SQL statement texts of the driver

Generated by `/verif/tools/sqltext.py` from `/repo/pkg/backend/sqlite/driver.go`; the string literals are
byte-for-byte copies (`tools/sqltext.py --check` compares them).
-/

namespace Verif.SqlText
''']
chars = ['''import Verif.Model.SqlText
/-!
# The statement texts as lists of characters

Generated by `/verif/tools/sqltext.py`; `…_eq` are checked by the kernel.  Only needed because the kernel decodes
string literals slowly.
-/

namespace Verif.SqlChars

set_option maxRecDepth 100000
''']
def ch(c):
    return {'\n': "'\\n'", '\t': "'\\t'", "'": "'\\''"}.get(c, "'%s'" % c)
names = ['revSQL','listSQL','listSqlV1_0','revisionIntervalSQL','countRevisionSQL','countRevisionSQLV1_0',
 'afterSQLPrefix','afterSQL','ttlSQL','deleteRevSQL','updateCompactSQL','deleteSQL','createSQL','updateSQL']
def emit(name, text, pos, end):
    assert '"' not in text and '\\' not in text
    out.append(f'/-- `driver.go:{line(pos)}-{line(end)}` -/\ndef {name} : String := "{text}"\n')
    cs = ', '.join(map(ch, text))
    chars.append(f'/-- The characters of `SqlText.{name}`. -/\ndef {name} : List Char := [{cs}]\n\n'
                 f'theorem {name}_eq : SqlText.{name}.toList = {name} :=\n'
                 f'  (congrArg String.toList (rfl : SqlText.{name} = String.ofList {name})).trans String.toList_ofList\n')
for n in names:
    m = re.search(r'\t' + n + r' = `([^`]*)`', src)
    emit(n, m.group(1), m.start(1), m.end(1))
body = src[src.index('func (d *Driver) tryCompact'):]
off = src.index('func (d *Driver) tryCompact')
ms = list(re.finditer(r'tx\.ExecContext\(ctx, `([^`]*)`', body))
assert len(ms) == 2
emit('compactSuperseded', ms[0].group(1), off+ms[0].start(1), off+ms[0].end(1))
emit('compactTombstones', ms[1].group(1), off+ms[1].start(1), off+ms[1].end(1))
fm = [m for m in re.finditer(r'fmt\.Sprintf\("%s( LIMIT \?)", sql\)', src)]
assert len(fm) == 2
emit('limitSuffix', fm[0].group(1), fm[0].start(1), fm[0].end(1))
out.append('end Verif.SqlText\n')
text = '\n'.join(out)
chars.append('end Verif.SqlChars\n')
open('/verif/lean/Verif/Lemmas/SqlChars.lean', 'w').write('\n'.join(chars))
path = '/verif/lean/Verif/Model/SqlText.lean'
if '--check' in sys.argv:
    ok = open(path).read() == text
    print('SqlText.lean', 'is identical to the SQL in /repo' if ok else 'DIFFERS')
    sys.exit(0 if ok else 1)
open(path, 'w').write(text)
