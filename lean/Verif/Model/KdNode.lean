/-
Model of `class KdTreeNode`, src/accelerators/kdtree.cpp:9-69 and kdtree.hpp:40-150.

`data` is the `uint32_t` bit field.  The union `{float split; uint32_t asset_offset;}` is one 32-bit
word: the split position is represented by its binary32 bit pattern, so that writing one member and
reading the other is expressible (it would be type punning) but the getters return the raw word.
-/

namespace Spectre.KdNode

structure Node where
  word : BitVec 32
  data : BitVec 32
deriving DecidableEq

/-- Constructor, internal node, kdtree.cpp:21-32. -/
def mkInternal (split : BitVec 32) (axis : Int) (otherChild : BitVec 32) : Node :=
  let data :=
    if axis = 1 then otherChild ||| 0x20000000#32
    else if axis = 2 then otherChild ||| 0x40000000#32
    else otherChild
  { word := split, data := data }

/-- Constructor, leaf node, kdtree.cpp:34-39. -/
def mkLeaf (assetOffset assetsNumber : BitVec 32) : Node :=
  { word := assetOffset, data := assetsNumber ||| 0x80000000#32 }

/-- `isLeaf`, kdtree.cpp:41-44. -/
def Node.isLeaf (n : Node) : Bool := (n.data &&& 0x80000000#32) != 0

/-- `getAxis`, kdtree.cpp:46-49. -/
def Node.getAxis (n : Node) : BitVec 32 := (n.data &&& 0x60000000#32) >>> 29

/-- `getSplit`, kdtree.cpp:51-54 (bit pattern of the float). -/
def Node.getSplit (n : Node) : BitVec 32 := n.word

/-- `getOtherChildOffset`, kdtree.cpp:56-59. -/
def Node.getOtherChildOffset (n : Node) : BitVec 32 := n.data &&& 0x1FFFFFFF#32

/-- `getAssetOffset`, kdtree.cpp:61-64. -/
def Node.getAssetOffset (n : Node) : BitVec 32 := n.word

/-- `getAssetsNumber`, kdtree.cpp:66-69. -/
def Node.getAssetsNumber (n : Node) : BitVec 32 := n.data &&& 0x7FFFFFFF#32

end Spectre.KdNode
