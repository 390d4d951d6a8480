import Verif.Client
/-!
# The traversals on a stack of limited size

The code of the iterators and of `clone` once more, but with a stack (`Vec`) that panics when
it would get more than `lim` elements, at *every* push. If these functions behave like those
of the model, then the stack never has more than `lim` elements at any point of the execution,
also inside a call. Used by C41 only.
-/
namespace BST.Limited
open Spec (Order)
variable {K V : Type} {α : Type}

/-- `stack.push(x)` with a limit. -/
def push {β : Type} (lim : Nat) (x : β) (stack : List β) : Out (List β) :=
  if stack.length < lim then .ok (x :: stack) else .panic

/-- `stack.extend(x)` for an `Option`, with a limit. -/
def extend {β : Type} (lim : Nat) (x : Option β) (stack : List β) : Out (List β) :=
  match x with
  | none => .ok stack
  | some x => push lim x stack

/-- src/map/preorder.rs:26-33, 58-72. `g` is what is yielded for a node. -/
def preNext (lim : Nat) (g : Ptr → InnerNode K V → α) (nodes : Nodes K V) :
    Stack → Out (Option α × Stack)
  | [] => .ok (none, [])
  | top :: stack => do
    let node ← nodes.getUnchecked top
    let stack ← extend lim node.right stack
    let stack ← extend lim node.left stack
    pure (some (g top node), stack)

/-- src/map/inorder.rs:17-23, 38-44, 63-69, 90-96. -/
def pushLeftSpine (lim : Nat) (nodes : Nodes K V) (current : Option Ptr) (stack : Stack) :
    Out Stack :=
  loop (BSTMap.walkFuel nodes) (fun (st : Option Ptr × Stack) =>
    match st.1 with
    | none => pure (.inr st.2)
    | some p => do
      let node ← nodes.getUnchecked p
      let stack ← push lim p st.2
      pure (.inl (node.left, stack))) (current, stack)

/-- src/map/inorder.rs:33-47, 79-102. -/
def inoNext (lim : Nat) (g : Ptr → InnerNode K V → α) (nodes : Nodes K V) :
    Stack → Out (Option α × Stack)
  | [] => .ok (none, [])
  | top :: stack => do
    let node ← nodes.getUnchecked top
    let stack ← pushLeftSpine lim nodes node.right stack
    pure (some (g top node), stack)

/-- src/map/postorder.rs:15-29, 88-102. -/
def postNew (lim : Nat) (nodes : Nodes K V) (root : Option Ptr) : Out Stack :=
  loop (BSTMap.walkFuel nodes) (fun (st : Option Ptr × Stack) =>
    match st.1 with
    | none => pure (.inr st.2)
    | some p => do
      let node ← nodes.getUnchecked p
      let stack ← extend lim node.right st.2
      let stack ← push lim p stack
      pure (.inl (node.left, stack))) (root, [])

/-- src/map/postorder.rs:58-71, 140-153. -/
def pushSpine (lim : Nat) (nodes : Nodes K V) (p : Ptr) (node : InnerNode K V) (stack : Stack) :
    Out Stack :=
  loop (BSTMap.walkFuel nodes) (fun (st : Ptr × InnerNode K V × Stack) => do
    let stack ← extend lim st.2.1.right st.2.2
    let stack ← push lim st.1 stack
    match st.2.1.left with
    | some l => do
      let node ← nodes.getUnchecked l
      pure (.inl (l, node, stack))
    | none => pure (.inr stack)) (p, node, stack)

/-- src/map/postorder.rs:36-75, 109-157. -/
def postNext (lim : Nat) (g : Ptr → InnerNode K V → α) (nodes : Nodes K V) (stack : Stack) :
    Out (Option α × Stack) :=
  loop (BSTMap.walkFuel nodes) (fun (stack : Stack) =>
    match stack with
    | [] => pure (.inr (none, []))
    | current :: stack => do
      let node ← nodes.getUnchecked current
      match node.right, stack with
      | some right, top :: rest =>
        if top = right then do
          let node ← nodes.getUnchecked right
          let stack ← push lim current rest
          let stack ← pushSpine lim nodes right node stack
          pure (.inl stack)
        else pure (.inr (some (g current node), top :: rest))
      | _, stack => pure (.inr (some (g current node), stack))) stack

/-- A new iterator. -/
def iter (lim : Nat) (o : Order) (m : BSTMap K V) : Out Stack :=
  match o with
  | .pre => extend lim m.root []
  | .ino => pushLeftSpine lim m.nodes m.root []
  | .post => postNew lim m.nodes m.root

/-- `next`; `g` is what is yielded for a node. -/
def next (lim : Nat) (o : Order) (g : Ptr → InnerNode K V → α) (m : BSTMap K V) :
    Stack → Out (Option α × Stack) :=
  match o with
  | .pre => preNext lim g m.nodes
  | .ino => inoNext lim g m.nodes
  | .post => postNext lim g m.nodes

/-- src/map.rs:79-97 `clone`. -/
def clone (lim : Nat) (cfg : Cfg) (cmps : Nat → K → Probe K) (cloneK : K → Option K)
    (cloneV : V → Option V) (m : BSTMap K V) : Out Unit × BSTMap K V :=
  (do
    let n ← M.lift (m.len cfg)
    BSTMap.onNodes (Slab.onItems (Arena.growTo cfg n))
    let root ← M.lift m.rootNode
    let stack ← M.lift (extend lim root [])
    loop (BSTMap.walkFuel m.nodes) (fun (st : Nat × List (Node K V)) =>
      match st.2 with
      | [] => pure (.inr ())
      | node :: stack =>
        match cloneK node.key, cloneV node.value with
        | some k, some v => do
          let _ ← BSTMap.insert cfg (cmps st.1 k) k v
          let r ← M.lift (node.right m.nodes)
          let stack ← M.lift (extend lim r stack)
          let l ← M.lift (node.left m.nodes)
          let stack ← M.lift (extend lim l stack)
          pure (.inl (st.1 + 1, stack))
        | _, _ => M.panic) (0, stack) : M (BSTMap K V) Unit) BSTMap.new

end BST.Limited
