import re
L=open('/repo/src/matrix.rs').read().split('\n')
def conv(s):
    s=re.sub(r'self\[(\d)\]\[(\d)\]',r'm.m\1\2',s)
    s=s.replace('*','*.').replace(' - ',' -. ').replace(' + ',' +. ').replace(';','').strip()
    return s
out=[]
out.append('''import Verif.Model.Vector

/-!
# /repo/src/matrix.rs

The arithmetic of `inverse` was transcribed from the source text by a script (`tools/genmat.py`), term by term and
in the same order.
-/

namespace PT

/-- /repo/src/matrix.rs:4-7; entry `[i][j]` is the field `mij`. -/
@[ext] structure Matrix (α : Type) where''')
for i in range(4):
    out.append('  '+'\n  '.join(f'm{i}{j} : α' for j in range(4)))
out.append('''
namespace Matrix
variable {α : Type}

/-- /repo/src/matrix.rs:30-37 -/
def transpose (m : Matrix α) : Matrix α :=
  ⟨'''+',\n   '.join(', '.join(f'm.m{j}{i}' for j in range(4)) for i in range(4))+'''⟩

variable [Scalar α]

/-- `Matrix * Matrix`, /repo/src/matrix.rs:74-89 (the two loops written out). -/
def mul (a b : Matrix α) : Matrix α :=
  ⟨'''+',\n   '.join(' +. '.join(f'a.m{i}{k} *. b.m{k}{j}' for k in range(4)) for i in range(4) for j in range(4))+'''⟩

/-- `Matrix / f32`, /repo/src/matrix.rs:91-102 -/
def sdiv (m : Matrix α) (n : α) : Matrix α :=
  ⟨'''+',\n   '.join(', '.join(f'm.m{i}{j} /. n' for j in range(4)) for i in range(4))+'''⟩

/-- The matrix `r` of /repo/src/matrix.rs:42-57. -/
def cofactors (m : Matrix α) : Matrix α :=
  ⟨'''+',\n   '.join(conv(L[41+k].split('=',1)[1]) for k in range(16))+'''⟩

/-- `d`, /repo/src/matrix.rs:59-65 -/
def detExpr (m : Matrix α) : α :=
  '''+'\n    '.join(conv(L[59+k]) if k==0 else '+. '+conv(L[59+k].strip()[2:]) for k in range(6))+'''

/-- /repo/src/matrix.rs:39-71 (the `debug_assert` is not modelled) -/
def inverse (m : Matrix α) : Matrix α := m.cofactors.sdiv m.detExpr

end Matrix
end PT
''')
open('/verif/lean/Verif/Model/Matrix.lean','w').write('\n'.join(out))
