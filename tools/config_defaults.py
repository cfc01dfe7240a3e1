"""Generate lean/Verif/Model/ConfigDefaults.lean from /repo/opensfm/config.py (defaults of OpenSfMConfig)."""
import ast
from fractions import Fraction
src = open('/repo/opensfm/config.py').read()
t = ast.parse(src)
c = [n for n in t.body if isinstance(n, ast.ClassDef)][0]
out = []
for n in c.body:
    if not isinstance(n, ast.AnnAssign):
        continue
    v = ast.literal_eval(n.value)
    if v is None: s = '.null'
    elif isinstance(v, bool): s = f'.bool {str(v).lower()}'
    elif isinstance(v, int): s = f'.num {v}' if v >= 0 else f'.num ({v})'
    elif isinstance(v, float):
        f = Fraction(ast.get_source_segment(src, n.value))
        s = f'.num ({f.numerator} / {f.denominator})'
    else: s = f'.str "{v}"'
    out.append(f'    ("{n.target.id}", {s})')
head = '''import Verif.Model.Config

/-!
# The default configuration

Generated by tools/config_defaults.py from `OpenSfMConfig` (/repo/opensfm/config.py 11-392). Decimal constants
are exact rationals.
-/
namespace Verif.Config

/-- `default_config()` (config.py:395-397): the fields of the data class in order. -/
def defaults : Dict String Val :=
  [
'''
open('/verif/lean/Verif/Model/ConfigDefaults.lean', 'w').write(head + ',\n'.join(out) + ']\n\nend Verif.Config\n')
