import Verif.Model.Construct
/-
Hashing: `std::hash<Vec>` (vec.h:357-367), `std::hash<IndexPair>` (utils.h:19-25), and the loop of `Mesh::construct` that looks for equal
positions with a hash table (mesh.cpp:94-104).

The table is `std::unordered_map` with chaining: a positive number of buckets, an entry is in the bucket given by its hash modulo that number.
When and to which size the table grows is a parameter (`pol`), and so is the order of entries in a bucket after that (`ord`). `std::size_t` has 64
bits. The hash of a number, `std::hash<double>`, is a parameter.
-/
namespace TinyMesh

/-- `std::hash<Vec<Float, 3>>`, vec.h:360-366 -/
def vecHash {F : Type} (h : F → BitVec 64) (v : Vec3 F) : BitVec 64 :=
  [v.x, v.y, v.z].foldl (fun acc a => h a ^^^ (acc <<< 1)) 0

/-- `std::hash<IndexPair>`, utils.h:21-23 -/
def pairHash (k : BitVec 32 × BitVec 32) : BitVec 64 := (k.1 ^^^ k.2).setWidth 64

/-- the entries of an `unordered_map` with values that are unsigned numbers, by buckets, mesh.cpp:94-104, utils.h:19-27 -/
abbrev HTab (K : Type) := List (List (K × Nat))

/-- how a table behaves: hash and equality of the keys, the number of buckets (less one) to use for the next insertion if there are `n` entries
in `b` buckets, and a rearrangement of the entries when it changes, mesh.cpp:94-104, utils.h:19-27 -/
structure HConf (K : Type) where
  hash : K → BitVec 64
  eq : K → K → Bool
  pol : Nat → Nat → Nat
  ord : List (K × Nat) → List (K × Nat)
  ord_perm : ∀ l, (ord l).Perm l

namespace HConf
variable {K : Type} (c : HConf K)

/-- the bucket of a key, mesh.cpp:94-104, utils.h:19-27 -/
def slot (n : Nat) (k : K) : Nat := (c.hash k).toNat % n

/-- a table of `n` buckets with these entries, mesh.cpp:94-104, utils.h:19-27 -/
def table (n : Nat) (es : List (K × Nat)) : HTab K := (List.range n).map fun i => es.filter fun e => c.slot n e.1 == i

/-- the empty map, which has one bucket, mesh.cpp:94-104, utils.h:19-27 -/
def empty : HTab K := [[]]

/-- `find`: the first entry of the bucket with an equal key, mesh.cpp:94-104, utils.h:19-27 -/
def find (t : HTab K) (k : K) : Option Nat :=
  match t[c.slot t.length k]? with
  | none => none
  | some b => (b.find? fun e => c.eq e.1 k).map (·.2)

/-- a new entry, after the table has grown if it does, mesh.cpp:94-104, utils.h:19-27 -/
def add (t : HTab K) (k : K) (x : Nat) : HTab K :=
  let n := c.pol t.flatten.length t.length + 1
  let t1 := if n = t.length then t else c.table n (c.ord t.flatten)
  t1.modify (c.slot t1.length k) fun b => (k, x) :: b

/-- the first entry with an equal key gets a new value, mesh.cpp:94-104, utils.h:19-27 -/
def replace (k : K) (x : Nat) : List (K × Nat) → List (K × Nat)
  | [] => []
  | e :: es => if c.eq e.1 k then (e.1, x) :: es else e :: replace k x es

/-- `map[k] = x`, mesh.cpp:94-104, utils.h:19-27 -/
def put (t : HTab K) (k : K) (x : Nat) : HTab K :=
  match c.find t k with
  | some _ => t.modify (c.slot t.length k) (c.replace k x)
  | none => c.add t k x

/-- `map[k]` as a value: a missing key is inserted with the value zero, mesh.cpp:94-104, utils.h:19-27 -/
def fetch (t : HTab K) (k : K) : Nat × HTab K :=
  match c.find t k with
  | some x => (x, t)
  | none => (0, c.add t k 0)

/-- `map.insert({k, x})`: does nothing if there is an equal key, mesh.cpp:94-104, utils.h:19-27 -/
def insert (t : HTab K) (k : K) (x : Nat) : HTab K :=
  match c.find t k with
  | some _ => t
  | none => c.add t k x

end HConf

/-- calls of the functions of a map, mesh.cpp:94-104, utils.h:19-27 -/
inductive HOp (K : Type) where
  | find (k : K)
  | put (k : K) (x : Nat)
  | fetch (k : K)
  | insert (k : K) (x : Nat)

/-- the result of a call and the new table, mesh.cpp:94-104, utils.h:19-27 -/
def HConf.call {K : Type} (c : HConf K) (t : HTab K) : HOp K → Option Nat × HTab K
  | .find k => (c.find t k, t)
  | .put k x => (none, c.put t k x)
  | .fetch k => (some (c.fetch t k).1, (c.fetch t k).2)
  | .insert k x => (none, c.insert t k x)

/-- the results of some calls, mesh.cpp:94-104, utils.h:19-27 -/
def HConf.calls {K : Type} (c : HConf K) : HTab K → List (HOp K) → List (Option Nat)
  | _, [] => []
  | t, o :: os => (c.call t o).1 :: HConf.calls c (c.call t o).2 os

/-- The loop mesh.cpp:96-104 with the hash table; see `dedupLoop`. -/
def dedupHash {F : Type} [Scalar F] (c : HConf (Vec3 F)) (V : List (Vec3 F)) : List Nat → HTab (Vec3 F) → M F Unit
  | [], _ => pure ()
  | i :: rest, t =>
    match V[i]? with
    | none => M.fail .ub
    | some p => do
      let n ← M.read (fun m => m.vs.length)
      let t1 := if (c.find t p).isNone then c.put t p n else t
      if (c.find t p).isNone then
        let v ← newVertex p
        pushVertex v
      pushIndex (c.fetch t1 p).1
      dedupHash c V rest (c.fetch t1 p).2

/-- `Mesh::construct(vertices, indices)`, mesh.cpp:88-107, with the hash table; the number of a vertex is a `uint32_t`, overflow is not modelled -/
def constructHash {F : Type} [Scalar F] (c : HConf (Vec3 F)) (V : List (Vec3 F)) (I : List Nat) : M F Unit := do
  clearArrays
  dedupHash c V I HConf.empty
  construct0

end TinyMesh
