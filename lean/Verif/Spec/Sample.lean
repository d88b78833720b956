import Verif.Spec.Machine
/-!
# Sample parameters for concrete runs

The examples next to the theorems run the model on literals.  They need some float arithmetic and some
host; these are the simplest ones and nothing is claimed about them.
-/
namespace Nk.Sample

/-- Float operations that always give zero. -/
def F : FloatOps :=
  { add := fun _ _ => 0, sub := fun _ _ => 0, mul := fun _ _ => 0, div := fun _ _ => 0
    ofInt := fun _ => 0, atof := fun _ => 0, print := fun _ => cs "0.000000" }

/-- A host whose functions return their first argument (nil without arguments) and whose external data
refers to no values. -/
def H : Host := { call := fun _ args vm => .ok (args.headD .nil, vm), mark := fun _ _ => [] }

end Nk.Sample
