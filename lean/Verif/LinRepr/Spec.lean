import Verif.LinRepr.Model
import Mathlib.Algebra.Group.Basic

/-!
What forms denote, independently of their texts.
-/

namespace Phyem.LinRepr

/-- An interpretation of root forms, scalars and operators in an abelian group. -/
structure Interp (V : Type) where
  root : Str → V
  un : Un → V → V
  bin : Bin → V → V → V
  smul : Scalar → V → V
  sdiv : V → Scalar → V

/-- Value of a form. -/
def Form.eval {V : Type} [AddCommGroup V] (I : Interp V) : Form → V
  | root n => I.root n
  | un u f => I.un u (f.eval I)
  | bin b f g => I.bin b (f.eval I) (g.eval I)
  | add f g => f.eval I + g.eval I
  | sub f g => f.eval I - g.eval I
  | smul c f => I.smul c (f.eval I)
  | sdiv f c => I.sdiv (f.eval I) c

/-- The root forms an expression is built from. -/
def Form.roots : Form → List Str
  | root n => [n]
  | un _ f => f.roots
  | bin _ f g => f.roots ++ g.roots
  | add f g => f.roots ++ g.roots
  | sub f g => f.roots ++ g.roots
  | smul _ f => f.roots
  | sdiv f _ => f.roots

/-- Substitution of a form for a root form. -/
def Form.subst : Form → Str → Form → Form
  | root m, n, by' => if m = n then by' else root m
  | un u f, n, by' => un u (f.subst n by')
  | bin b f g, n, by' => bin b (f.subst n by') (g.subst n by')
  | add f g, n, by' => add (f.subst n by') (g.subst n by')
  | sub f g, n, by' => sub (f.subst n by') (g.subst n by')
  | smul c f, n, by' => smul c (f.subst n by')
  | sdiv f c, n, by' => sdiv (f.subst n by') c

/-- Names of scalars in a scalar expression. -/
def Scalar.names : Scalar → List Str
  | root n => [n]
  | add a b => a.names ++ b.names
  | div a b => a.names ++ b.names

/-- All names of root forms and of scalars are names the library accepts. -/
def Form.wf : Form → Prop
  | root n => validName n = true
  | un _ f => f.wf
  | bin _ f g => f.wf ∧ g.wf
  | add f g => f.wf ∧ g.wf
  | sub f g => f.wf ∧ g.wf
  | smul c f => (∀ n ∈ c.names, validName n = true) ∧ f.wf
  | sdiv f c => f.wf ∧ ∀ n ∈ c.names, validName n = true

/-- Is a sum or difference. -/
def Form.isSum : Form → Bool
  | add _ _ => true
  | sub _ _ => true
  | _ => false

/-- An operator whose result depends on an output space. -/
def Un.hasSpace : Un → Bool
  | projection _ => true
  | ln _ => true
  | _ => false

def Bin.hasSpace : Bin → Bool
  | multi _ => true
  | _ => false

/-- No operator with an output space, and only root scalars. -/
def Form.plain : Form → Prop
  | root _ => True
  | un u f => u.hasSpace = false ∧ f.plain
  | bin b f g => b.hasSpace = false ∧ f.plain ∧ g.plain
  | add f g => f.plain ∧ g.plain
  | sub f g => f.plain ∧ g.plain
  | smul c f => c.isRoot = true ∧ f.plain
  | sdiv f c => f.plain ∧ c.isRoot = true

/-- No sum or difference is subtracted as a whole: `a - (b + c)` does not occur. -/
def Form.noGroupedMinus : Form → Prop
  | root _ => True
  | un _ f => f.noGroupedMinus
  | bin _ f g => f.noGroupedMinus ∧ g.noGroupedMinus
  | add f g => f.noGroupedMinus ∧ g.noGroupedMinus
  | sub f g => f.noGroupedMinus ∧ g.noGroupedMinus ∧ g.isSum = false
  | smul _ f => f.noGroupedMinus
  | sdiv f _ => f.noGroupedMinus

/-- `n` occurs in `f` only as the whole of `f` or as a summand of a sum: the places where a text
can be inserted without brackets. -/
def Form.onlySummand (n : Str) : Form → Prop
  | root _ => True
  | un _ f => f ≠ root n ∧ f.onlySummand n
  | bin _ f g => f ≠ root n ∧ g ≠ root n ∧ f.onlySummand n ∧ g.onlySummand n
  | add f g => f.onlySummand n ∧ g.onlySummand n
  | sub f g => f.onlySummand n ∧ g.onlySummand n
  | smul _ f => f ≠ root n ∧ f.onlySummand n
  | sdiv f _ => f ≠ root n ∧ f.onlySummand n

end Phyem.LinRepr
