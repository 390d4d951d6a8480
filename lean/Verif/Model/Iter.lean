import Verif.Model.Map
/-!
# Model of `src/map/{preorder,inorder,postorder}.rs`, and of the trait impls of
`src/map.rs` / `src/map/node.rs` that are built on traversals (`PartialEq`, `Debug`)

An iterator is its `stack` (top of the stack = head of the list; the Rust `Vec`
has the top at the end); the borrowed slab is passed separately. A `Mut` iterator
yields the key and the place of the value (the address of the node).
-/
namespace BST
variable {K V : Type}

/-- The `stack: Vec<Ptr>` of all six iterators. -/
abbrev Stack := List Ptr

/-- Repeated calls to `next` until it returns `None`: what a `for` loop or
`collect()` does with an iterator. -/
def drain {m : Type → Type} [Monad m] [HasDiverge m] {σ α : Type}
    (fuel : Nat) (next : σ → m (Option α × σ)) (st : σ) : m (List α) :=
  loop fuel (fun (s : σ × List α) => do
    let (o, st) ← next s.1
    match o with
    | none => pure (.inr s.2.reverse)
    | some a => pure (.inl (st, a :: s.2))) (st, [])

/-! ### Pre-order -/
namespace IterPreorder
/-- src/map/preorder.rs:14-19 `IterPreorder::new`. -/
def new (_nodes : Nodes K V) (root : Option Ptr) : Out Stack := .ok root.toList

/-- src/map/preorder.rs:26-33 `next`. -/
def next (nodes : Nodes K V) : Stack → Out (Option (K × V) × Stack)
  | [] => .ok (none, [])
  | top :: stack => do
    let node ← nodes.getUnchecked top
    let stack := node.right.toList ++ stack
    let stack := node.left.toList ++ stack
    pure (some (node.key, node.value), stack)
end IterPreorder

namespace IterMutPreorder
/-- src/map/preorder.rs:45-51 `IterMutPreorder::new`. -/
def new (_nodes : Nodes K V) (root : Option Ptr) : Out Stack := .ok root.toList

/-- src/map/preorder.rs:58-72 `next`. -/
def next (nodes : Nodes K V) : Stack → Out (Option (K × Ptr) × Stack)
  | [] => .ok (none, [])
  | top :: stack => do
    let node ← nodes.getUnchecked top
    let stack := node.right.toList ++ stack
    let stack := node.left.toList ++ stack
    pure (some (node.key, top), stack)
end IterMutPreorder

/-! ### In-order -/
namespace IterInorder
/-- The loop of src/map/inorder.rs:17-23 and 38-44 (63-69, 90-96 for
`IterMutInorder`): push the left spine of `current`. -/
def pushLeftSpine (nodes : Nodes K V) (current : Option Ptr) (stack : Stack) : Out Stack :=
  loop (BSTMap.walkFuel nodes) (fun (st : Option Ptr × Stack) =>
    match st.1 with
    | none => pure (.inr st.2)
    | some p => do
      let node ← nodes.getUnchecked p
      pure (.inl (node.left, p :: st.2))) (current, stack)

/-- src/map/inorder.rs:15-26 `IterInorder::new`. -/
def new (nodes : Nodes K V) (root : Option Ptr) : Out Stack := pushLeftSpine nodes root []

/-- src/map/inorder.rs:33-47 `next`. -/
def next (nodes : Nodes K V) : Stack → Out (Option (K × V) × Stack)
  | [] => .ok (none, [])
  | top :: stack => do
    let node ← nodes.getUnchecked top
    let stack ← pushLeftSpine nodes node.right stack
    pure (some (node.key, node.value), stack)
end IterInorder

namespace IterMutInorder
/-- src/map/inorder.rs:60-72 `IterMutInorder::new`. -/
def new (nodes : Nodes K V) (root : Option Ptr) : Out Stack :=
  IterInorder.pushLeftSpine nodes root []

/-- src/map/inorder.rs:79-102 `next`. -/
def next (nodes : Nodes K V) : Stack → Out (Option (K × Ptr) × Stack)
  | [] => .ok (none, [])
  | top :: stack => do
    let node ← nodes.getUnchecked top
    let stack ← IterInorder.pushLeftSpine nodes node.right stack
    let node ← nodes.getUnchecked top
    pure (some (node.key, top), stack)
end IterMutInorder

/-! ### Post-order -/
namespace IterPostorder
/-- src/map/postorder.rs:15-29 `IterPostorder::new`. -/
def new (nodes : Nodes K V) (root : Option Ptr) : Out Stack :=
  loop (BSTMap.walkFuel nodes) (fun (st : Option Ptr × Stack) =>
    match st.1 with
    | none => pure (.inr st.2)
    | some p => do
      let node ← nodes.getUnchecked p
      pure (.inl (node.left, p :: (node.right.toList ++ st.2)))) (root, [])

/-- The inner `loop` of src/map/postorder.rs:58-71 (140-153 for
`IterMutPostorder`); loop variables `current_ptr`, `node` and the stack. -/
def pushSpine (nodes : Nodes K V) (p : Ptr) (node : InnerNode K V) (stack : Stack) : Out Stack :=
  loop (BSTMap.walkFuel nodes) (fun (st : Ptr × InnerNode K V × Stack) =>
    let (p, node, stack) := st
    let stack := node.right.toList ++ stack
    let stack := p :: stack
    match node.left with
    | some l => do
      let node ← nodes.getUnchecked l
      pure (.inl (l, node, stack))
    | none => pure (.inr stack)) (p, node, stack)

/-- src/map/postorder.rs:36-75 `next`. -/
def next (nodes : Nodes K V) (stack : Stack) : Out (Option (K × V) × Stack) :=
  loop (BSTMap.walkFuel nodes) (fun (stack : Stack) =>
    match stack with
    | [] => pure (.inr (none, []))
    | current :: stack => do
      let node ← nodes.getUnchecked current
      match node.right, stack with
      | some right, top :: rest =>
        if top = right then
          let node ← nodes.getUnchecked right
          let stack ← pushSpine nodes right node (current :: rest)
          pure (.inl stack)
        else pure (.inr (some (node.key, node.value), top :: rest))
      | _, stack => pure (.inr (some (node.key, node.value), stack))) stack
end IterPostorder

namespace IterMutPostorder
/-- src/map/postorder.rs:88-102 `IterMutPostorder::new`. -/
def new (nodes : Nodes K V) (root : Option Ptr) : Out Stack :=
  loop (BSTMap.walkFuel nodes) (fun (st : Option Ptr × Stack) =>
    match st.1 with
    | none => pure (.inr st.2)
    | some p => do
      let node ← nodes.getUnchecked p
      pure (.inl (node.left, p :: (node.right.toList ++ st.2)))) (root, [])

/-- src/map/postorder.rs:109-157 `next`. -/
def next (nodes : Nodes K V) (stack : Stack) : Out (Option (K × Ptr) × Stack) :=
  loop (BSTMap.walkFuel nodes) (fun (stack : Stack) =>
    match stack with
    | [] => pure (.inr (none, []))
    | current :: stack => do
      let node ← nodes.getUnchecked current
      match node.right, stack with
      | some right, top :: rest =>
        if top = right then
          let node ← nodes.getUnchecked right
          let stack ← IterPostorder.pushSpine nodes right node (current :: rest)
          pure (.inl stack)
        else
          let node ← nodes.getUnchecked current
          pure (.inr (some (node.key, current), top :: rest))
      | _, stack => do
        let node ← nodes.getUnchecked current
        pure (.inr (some (node.key, current), stack))) stack
end IterMutPostorder

namespace BSTMap

/-- Number of `next` calls granted to a drained iterator (`diverge` beyond). -/
def drainFuel (m : BSTMap K V) : Nat := m.nodes.items.len + 1

/-- src/map.rs:658-660 `iter_preorder`, drained. -/
def iterPreorder (m : BSTMap K V) : Out (List (K × V)) := do
  let st ← IterPreorder.new m.nodes m.root
  drain m.drainFuel (IterPreorder.next m.nodes) st

/-- src/map.rs:663-665 `iter_inorder`, drained. -/
def iterInorder (m : BSTMap K V) : Out (List (K × V)) := do
  let st ← IterInorder.new m.nodes m.root
  drain m.drainFuel (IterInorder.next m.nodes) st

/-- src/map.rs:668-670 `iter_postorder`, drained. -/
def iterPostorder (m : BSTMap K V) : Out (List (K × V)) := do
  let st ← IterPostorder.new m.nodes m.root
  drain m.drainFuel (IterPostorder.next m.nodes) st

/-- src/map.rs:673-675 `iter_mut_preorder`, drained. -/
def iterMutPreorder (m : BSTMap K V) : Out (List (K × Ptr)) := do
  let st ← IterMutPreorder.new m.nodes m.root
  drain m.drainFuel (IterMutPreorder.next m.nodes) st

/-- src/map.rs:678-680 `iter_mut_inorder`, drained. -/
def iterMutInorder (m : BSTMap K V) : Out (List (K × Ptr)) := do
  let st ← IterMutInorder.new m.nodes m.root
  drain m.drainFuel (IterMutInorder.next m.nodes) st

/-- src/map.rs:683-685 `iter_mut_postorder`, drained. -/
def iterMutPostorder (m : BSTMap K V) : Out (List (K × Ptr)) := do
  let st ← IterMutPostorder.new m.nodes m.root
  drain m.drainFuel (IterMutPostorder.next m.nodes) st

/-- src/map.rs:112 `k1.eq(k2) && v1.eq(v2)`, for the `n`-th pair of entries. `keq`, `veq` are the
user's `PartialEq`, which may panic (`none`) and need not give the same answer every time. -/
def entryEq (keq : Nat → K → K → Option Bool) (veq : Nat → V → V → Option Bool) (n : Nat)
    (x y : K × V) : Out Bool :=
  match keq n x.1 y.1 with
  | none => .panic
  | some false => .ok false
  | some true =>
    match veq n x.2 y.2 with
    | none => .panic
    | some b => .ok b

/-- src/map.rs:99-115 `PartialEq for BSTMap`: compare the lengths, then
`zip(..).all(same)` of the two in-order iterators (`zip` advances the left one
first and stops at the first `None`). -/
def eqWith (cfg : Cfg) (same : Nat → K × V → K × V → Out Bool) (a b : BSTMap K V) : Out Bool := do
  let na ← a.len cfg
  let nb ← b.len cfg
  if na ≠ nb then pure false
  else
    let sa ← IterInorder.new a.nodes a.root
    let sb ← IterInorder.new b.nodes b.root
    loop a.drainFuel (fun (st : Nat × Stack × Stack) => do
      let (x, sa) ← IterInorder.next a.nodes st.2.1
      match x with
      | none => pure (.inr true)
      | some x =>
        let (y, sb) ← IterInorder.next b.nodes st.2.2
        match y with
        | none => pure (.inr true)
        | some y =>
          let r ← same st.1 x y
          if r then pure (.inl (st.1 + 1, sa, sb)) else pure (.inr false)) (0, sa, sb)

/-- `eqWith` for the user's `PartialEq` where these are functions; with `entryEq` for any others. -/
def eq (cfg : Cfg) (keq : K → K → Bool) (veq : V → V → Bool) (a b : BSTMap K V) : Out Bool :=
  eqWith cfg (fun _ x y => pure (keq x.1 y.1 && veq x.2 y.2)) a b

/-- `Option`'s derived `Debug` (`{:?}`) around an already rendered payload. -/
def debugOption : Option String → String
  | none => "None"
  | some s => "Some(" ++ s ++ ")"

/-- src/map/node.rs:15-27 `Debug for Node`, rendered with `{:?}`: recursive, so
with fuel. `dk`, `dv` are the user's `Debug`. For `{:#?}` see `Model/Fmt.lean`. -/
def debugNode (dk : K → String) (dv : V → String) (nodes : Nodes K V) :
    Nat → Node K V → Out String
  | 0, _ => .diverge
  | fuel + 1, n => do
    let l ← n.left nodes
    let l ← (match l with
      | none => pure none
      | some c => do let s ← debugNode dk dv nodes fuel c; pure (some s) : Out (Option String))
    let r ← n.right nodes
    let r ← (match r with
      | none => pure none
      | some c => do let s ← debugNode dk dv nodes fuel c; pure (some s) : Out (Option String))
    pure ("Node { key: " ++ dk n.key ++ ", value: " ++ dv n.value ++
      ", left: " ++ debugOption l ++ ", right: " ++ debugOption r ++ " }")

/-- src/map.rs:68-77 `Debug for BSTMap`, rendered with `{:?}`. -/
def debug (dk : K → String) (dv : V → String) (m : BSTMap K V) : Out String := do
  let root ← m.rootNode
  let r ← (match root with
    | none => pure none
    | some n => do let s ← debugNode dk dv m.nodes (walkFuel m.nodes) n; pure (some s) :
      Out (Option String))
  pure ("BSTMap { root: " ++ debugOption r ++ " }")

/-- src/map/node.rs:109-121 `Debug for NodeMut`, rendered with `{:?}` (the
placeholders are `&str`s, hence the quotes). -/
def debugNodeMut (dk : K → String) (dv : V → String) (nodes : Nodes K V) (n : NodeMut) :
    Out String := do
  let x ← nodes.getUnchecked n.ptr
  pure ("NodeMut { key: " ++ dk x.key ++ ", value: " ++ dv x.value ++
    ", left: \"...\", right: \"...\" }")

end BSTMap
end BST
