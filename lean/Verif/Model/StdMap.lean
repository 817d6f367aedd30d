/-
`std::map` as a list of (key, value) pairs in increasing key order, with the operations used in /repo.
Not code of the repository: library model.
-/
namespace Fidi

/-- `std::map<K, V>`. -/
abbrev StdMap (K V : Type) := List (K × V)

namespace StdMap
variable {K V : Type} [LT K] [DecidableLT K]

/-- `m.find(k)`, as an option (`none` = `m.end()`). Keys are equivalent when neither is less than the other. -/
def find (m : StdMap K V) (k : K) : Option V :=
  match m with
  | [] => none
  | (k', v) :: m => if k' < k then find m k else if k < k' then none else some v

/-- `m[k] = v`. -/
def set (m : StdMap K V) (k : K) (v : V) : StdMap K V :=
  match m with
  | [] => [(k, v)]
  | (k', v') :: m => if k' < k then (k', v') :: set m k v else if k < k' then (k, v) :: (k', v') :: m else (k', v) :: m

/-- `m.insert(std::pair(k, v))`: keeps the old value if the key is present. -/
def insert (m : StdMap K V) (k : K) (v : V) : StdMap K V :=
  match m with
  | [] => [(k, v)]
  | (k', v') :: m => if k' < k then (k', v') :: insert m k v else if k < k' then (k, v) :: (k', v') :: m else (k', v') :: m

end StdMap
end Fidi
