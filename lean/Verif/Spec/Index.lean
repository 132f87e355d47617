import Verif.Spec.Bytes

/-! Specification of NTFS indexes: how an entry is encoded, which records an index allocation holds,
and the tree that is stored in the nodes. -/

namespace NT.Spec

/-- The eight bytes at `off` are the two's complement encoding of `v`. -/
def IntAt (b : Bytes) (off : Nat) (v : Int) : Prop :=
  -(I63 : Int) ≤ v ∧ v < (I63 : Int) ∧ ∃ k : Int, v = (field b off 8 : Int) + k * U64

/-- What an index entry holds: its first eight bytes (a file reference, or offset and length of the
data) and its key. -/
structure Ent where
  head : Bytes
  key : Bytes
  deriving DecidableEq, Repr

/-- The bytes an entry reserves for the VCN of its subnode. -/
abbrev vcnSize (sub : Option Int) : Nat := if sub.isSome then 8 else 0

/-- `b` is an index entry, as far as its header and subnode VCN are concerned. -/
structure EntryHeader (last : Bool) (sub : Option Int) (b : Bytes) : Prop where
  room : 16 + vcnSize sub ≤ b.length
  length : field b 8 2 = b.length
  /-- bit 0: there is a subnode; bit 1: this is the last entry of the node -/
  flags : field b 12 1 % 4 = (if sub.isSome then 1 else 0) + (if last then 2 else 0)
  vcn : ∀ v, sub = some v → IntAt b (b.length - 8) v

/-- `b` is an encoding of the entry `e` with the subnode `sub`; the last entry of a node has no
content. -/
structure Encodes1 (e : Ent) (sub : Option Int) (b : Bytes) : Prop extends EntryHeader false sub b where
  head : b.take 8 = e.head
  keyLength : field b 10 2 = e.key.length
  fits : 16 + e.key.length + vcnSize sub ≤ b.length
  key : (b.drop 16).take e.key.length = e.key

/-- The `len` bytes of `d` at `off`. -/
def part (d : Bytes) (off len : Nat) : Bytes := (d.drop off).take len

/-- An index tree. A node is the sequence of its entries, each with an optional subnode that comes
before it in the order. It ends with a last entry, which may have a subnode, too, or (not usual)
without one, when the used part of the node is exhausted. -/
inductive Node
  | stop
  | last
  | lastSub (sub : Node)
  | leaf (e : Ent) (rest : Node)
  | inner (sub : Node) (e : Ent) (rest : Node)

/-- All entries in order. -/
def Node.inorder : Node → List Ent
  | .stop => []
  | .last => []
  | .lastSub sub => sub.inorder
  | .leaf e rest => e :: rest.inorder
  | .inner sub e rest => sub.inorder ++ e :: rest.inorder

/-- Number of entries of all nodes, last entries included. -/
def Node.entries : Node → Nat
  | .stop => 0
  | .last => 1
  | .lastSub sub => 1 + sub.entries
  | .leaf _ rest => 1 + rest.entries
  | .inner sub _ rest => 1 + sub.entries + rest.entries

/-- Number of nodes. -/
def Node.nodes : Node → Nat
  | .stop => 1
  | .last => 1
  | .lastSub sub => 1 + sub.nodes
  | .leaf _ rest => rest.nodes
  | .inner sub _ rest => sub.nodes + rest.nodes

/-- The number of nodes on the longest path. -/
def Node.depth : Node → Nat
  | .stop => 1
  | .last => 1
  | .lastSub sub => 1 + sub.depth
  | .leaf _ rest => rest.depth
  | .inner sub _ rest => max (1 + sub.depth) rest.depth

/-- The bytes of `d` from `off` on, up to `stop`, hold the entries of the node `t`. `R v d off stop`
says which buffer and range belong to the index record with VCN `v`. -/
inductive NodeAt (R : Int → Bytes → Nat → Nat → Prop) : Bytes → Nat → Nat → Node → Prop
  | stop {d : Bytes} {off stop : Nat} (h : stop ≤ off) : NodeAt R d off stop .stop
  | last {d : Bytes} {off stop len : Nat} (h : off < stop) (hin : off + len ≤ d.length)
      (he : EntryHeader true none (part d off len)) : NodeAt R d off stop .last
  | lastSub {d : Bytes} {off stop len : Nat} {v : Int} {d' : Bytes} {off' stop' : Nat} {sub : Node}
      (h : off < stop) (hin : off + len ≤ d.length)
      (he : EntryHeader true (some v) (part d off len)) (hr : R v d' off' stop')
      (hs : NodeAt R d' off' stop' sub) : NodeAt R d off stop (.lastSub sub)
  | leaf {d : Bytes} {off stop len : Nat} {e : Ent} {rest : Node}
      (h : off < stop) (hin : off + len ≤ d.length) (he : Encodes1 e none (part d off len))
      (ht : NodeAt R d (off + len) stop rest) : NodeAt R d off stop (.leaf e rest)
  | inner {d : Bytes} {off stop len : Nat} {v : Int} {d' : Bytes} {off' stop' : Nat} {sub : Node}
      {e : Ent} {rest : Node} (h : off < stop) (hin : off + len ≤ d.length)
      (he : Encodes1 e (some v) (part d off len)) (hr : R v d' off' stop')
      (hs : NodeAt R d' off' stop' sub) (ht : NodeAt R d (off + len) stop rest) :
      NodeAt R d off stop (.inner sub e rest)

/-- `d` is what the multi-sector protection of `disk` restores. There may be fewer protected sectors
than the record has; they are left alone. -/
structure Restores (disk d : Bytes) (n off : Nat) : Prop where
  len : d.length = disk.length
  offField : field disk 4 2 = off
  countField : field disk 6 2 = n + 1
  inside : off + 2 + 2 * n ≤ disk.length ∧ 512 * n ≤ disk.length
  short : off < 65534
  /-- the array does not touch a sector tail -/
  apart : ∀ i < n, off + 2 + 2 * n ≤ 512 * i + 510 ∨ 512 * i + 512 ≤ off
  tails : ∀ i < n, (disk.drop (512 * i + 510)).take 2 = (disk.drop off).take 2
  saved : ∀ i < n, (d.drop (512 * i + 510)).take 2 = (disk.drop (off + 2 + 2 * i)).take 2
  rest : ∀ j, (∀ i < n, ¬ (512 * i + 510 ≤ j ∧ j < 512 * i + 512)) → d[j]? = disk[j]?

/-- The `size` bytes at `pos` of the stream with the bytes `c` are an index record; `d` is its restored
contents, its entries are in `d` from `off` to `stop`. -/
structure RecordIn (c : Bytes) (size pos : Nat) (d : Bytes) (off stop : Nat) : Prop where
  inside : pos + size ≤ c.length
  signature : part c pos 4 = [0x49, 0x4E, 0x44, 0x58]
  restores : ∃ n o, Restores (part c pos size) d n o
  header : 40 ≤ size
  off : 24 + field d 24 4 = off
  stop : 24 + field d 28 4 = stop
  used : field d 28 4 ≤ field d 32 4
  allocated : 24 + field d 32 4 ≤ size

/-- In the index allocation stream with the bytes `c` there is an index record of `size` bytes for the
VCN `v`. -/
structure RecordAt (c : Bytes) (clusterSize size : Nat) (v : Int) (d : Bytes) (off stop : Nat) : Prop
    extends RecordIn c size (v.toNat * clusterSize) d off stop where
  nonneg : 0 ≤ v
  /-- the byte offset is a valid `i64` -/
  small : v * clusterSize < (I63 : Int)
  vcn : IntAt d 16 v

end NT.Spec
