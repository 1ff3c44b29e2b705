import Verif.Spec.Memory
/-
What slows down appending to the slices a message already holds.
-/
namespace Pb

mutual
/-- Three for every element of a slice that has no free slot of its own: the work left over for the next time the slice
must grow. -/
def Val.debt : Val → Nat
  | .opt _ v => v.debt
  | .ptr v => v.debt
  | .struct fs => Val.debtL fs
  | .slice _ es sp => 3 * (es.length - sp.length) + Val.debtL es + Val.debtL sp
  | .map _ m => Val.debtM m
  | _ => 0
/-- `debt` of a list. -/
def Val.debtL : List Val → Nat
  | [] => 0
  | v :: vs => v.debt + Val.debtL vs
/-- `debt` of map entries. -/
def Val.debtM : List (Key × Val) → Nat
  | [] => 0
  | (_, v) :: vs => v.debt + Val.debtM vs
end

mutual
/-- What there is to look at in a message: `W` for every message in it, itself included, 1 for every element of a slice and
every entry of a map. -/
def Val.visits (W : Nat) : Val → Nat
  | .opt _ v => v.visits W
  | .ptr v => v.visits W
  | .struct fs => W + Val.visitsL W fs
  | .slice _ es _ => es.length + Val.visitsL W es
  | .map _ m => m.length + Val.visitsM W m
  | _ => 0
/-- `visits` of a list. -/
def Val.visitsL (W : Nat) : List Val → Nat
  | [] => 0
  | v :: vs => v.visits W + Val.visitsL W vs
/-- `visits` of map entries. -/
def Val.visitsM (W : Nat) : List (Key × Val) → Nat
  | [] => 0
  | (_, v) :: vs => v.visits W + Val.visitsM W vs
end

mutual
/-- How deep messages are nested: 1 for a message without messages in it. -/
def Val.nesting : Val → Nat
  | .opt _ v => v.nesting
  | .ptr v => v.nesting
  | .struct fs => 1 + Val.nestingL fs
  | .slice _ es _ => Val.nestingL es
  | .map _ m => Val.nestingM m
  | _ => 0
/-- `nesting` of a list. -/
def Val.nestingL : List Val → Nat
  | [] => 0
  | v :: vs => max v.nesting (Val.nestingL vs)
/-- `nesting` of map entries. -/
def Val.nestingM : List (Key × Val) → Nat
  | [] => 0
  | (_, v) :: vs => max v.nesting (Val.nestingM vs)
end

mutual
/-- As `nesting`; what sits in the slots between the length and the capacity of a slice counts too. -/
def Val.deep : Val → Nat
  | .opt _ v => v.deep
  | .ptr v => v.deep
  | .struct fs => 1 + Val.deepL fs
  | .slice _ es sp => max (Val.deepL es) (Val.deepL sp)
  | .map _ m => Val.deepM m
  | _ => 0
/-- `deep` of a list. -/
def Val.deepL : List Val → Nat
  | [] => 0
  | v :: vs => max v.deep (Val.deepL vs)
/-- `deep` of map entries. -/
def Val.deepM : List (Key × Val) → Nat
  | [] => 0
  | (_, v) :: vs => max v.deep (Val.deepM vs)
end

end Pb
