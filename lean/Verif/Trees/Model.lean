/-!
# Behaviour trees (`Projects/Library/libBehaviourTree/Control.os`, `Decorator.os`, `Node.os`)

A tree of nodes is ticked again and again.  Actions and conditions are written by the user: a leaf is a number, and `act` is what a tick of
that leaf returns and does to the world `W`.  Simplifications: the texts the nodes print are left out, a node has one parent,
`RepeaterDecorator.tick` (Decorator.os:87-95), which ends without a result, is not modelled.
-/

namespace Verif.Trees

/-- `NodeStatus` (Node.os:9-14). -/
inductive Status where
  | success
  | running
  | waiting
  | failure
deriving Repr, DecidableEq

/-- Nodes with their members: `Index` of the sequences and fallbacks, `Status` of the decorators. -/
inductive Node where
  | leaf (id : Nat)
  | fallback (index : Nat) (childs : List Node)
  | reactiveFallback (childs : List Node)
  | sequence (index : Nat) (childs : List Node)
  | reactiveSequence (childs : List Node)
  | sequenceStar (index : Nat) (childs : List Node)
  | forceFailure (status : Status) (child : Node)
  | forceSuccess (status : Status) (child : Node)
  | inverter (child : Node)

/-- What a loop over the children ends with: the result, the new `Index`, the children and the world. -/
structure Loop (W : Type) where
  status : Status
  index : Nat
  childs : List Node
  world : W

/-- Puts a child in front of the others. -/
def Loop.cons {W : Type} (c : Node) (r : Loop W) : Loop W := { r with childs := c :: r.childs }

variable {W : Type} (act : Nat → W → Status × W)

mutual
/-- `tick`. -/
def tick : Node → W → Status × Node × W
  | .leaf i, w => ((act i w).1, .leaf i, (act i w).2)
  | .fallback i cs, w => let r := fallbackLoop i 0 cs w; (r.status, .fallback r.index r.childs, r.world)
  | .reactiveFallback cs, w => let r := reactiveFallbackLoop cs w; (r.status, .reactiveFallback r.childs, r.world)
  | .sequence i cs, w => let r := sequenceLoop i 0 cs w; (r.status, .sequence r.index r.childs, r.world)
  | .reactiveSequence cs, w => let r := reactiveSequenceLoop cs w; (r.status, .reactiveSequence r.childs, r.world)
  | .sequenceStar i cs, w => let r := starLoop i 0 cs w; (r.status, .sequenceStar r.index r.childs, r.world)
  -- `ForceFailureDecorator.tick` (Decorator.os:33-41)
  | .forceFailure st c, w => (if st = .running ∨ st = .waiting then st else .failure, .forceFailure st c, w)
  -- `ForceSuccessDecorator.tick` (Decorator.os:49-57)
  | .forceSuccess st c, w => (if st = .running ∨ st = .waiting then st else .success, .forceSuccess st c, w)
  -- `InverterDecorator.tick` (Decorator.os:65-79); the member `Status` is overwritten before it is read
  | .inverter c, w =>
    let (s, c', w') := tick c w
    (if s = .running ∨ s = .waiting then s else if s = .failure then .success else .failure, .inverter c', w')

/-- The loop of `Fallback.tick` (Control.os:37-63).  `pos` is the number of the first child in the list: the children before `Index` are
passed over. -/
def fallbackLoop (index pos : Nat) : List Node → W → Loop W
  | [], w => ⟨.failure, 0, [], w⟩
  | c :: cs, w =>
    if pos < index then .cons c (fallbackLoop index (pos + 1) cs w)
    else
      let (s, c', w') := tick c w
      if s = .running ∨ s = .waiting then ⟨s, index, c' :: cs, w'⟩
      else if s = .failure then .cons c' (fallbackLoop (index + 1) (pos + 1) cs w')
      else ⟨.success, 0, c' :: cs, w'⟩

/-- The loop of `ReactiveFallback.tick` (Control.os:73-93). -/
def reactiveFallbackLoop : List Node → W → Loop W
  | [], w => ⟨.failure, 0, [], w⟩
  | c :: cs, w =>
    let (s, c', w') := tick c w
    if s = .running ∨ s = .waiting then ⟨s, 0, c' :: cs, w'⟩
    else if s = .success then ⟨.success, 0, c' :: cs, w'⟩
    else .cons c' (reactiveFallbackLoop cs w')

/-- The loop of `Sequence.tick` (Control.os:101-129). -/
def sequenceLoop (index pos : Nat) : List Node → W → Loop W
  | [], w => ⟨.success, 0, [], w⟩
  | c :: cs, w =>
    if pos < index then .cons c (sequenceLoop index (pos + 1) cs w)
    else
      let (s, c', w') := tick c w
      if s = .success then .cons c' (sequenceLoop (index + 1) (pos + 1) cs w')
      else if s = .running ∨ s = .waiting then ⟨s, index, c' :: cs, w'⟩
      else ⟨.failure, 0, c' :: cs, w'⟩

/-- The loop of `ReactiveSequence.tick` (Control.os:139-159). -/
def reactiveSequenceLoop : List Node → W → Loop W
  | [], w => ⟨.success, 0, [], w⟩
  | c :: cs, w =>
    let (s, c', w') := tick c w
    if s = .running ∨ s = .waiting then ⟨s, 0, c' :: cs, w'⟩
    else if s = .failure then ⟨.failure, 0, c' :: cs, w'⟩
    else .cons c' (reactiveSequenceLoop cs w')

/-- The loop of `SequenceStar.tick` (Control.os:167-187). -/
def starLoop (index pos : Nat) : List Node → W → Loop W
  | [], w => ⟨.success, 0, [], w⟩
  | c :: cs, w =>
    if pos < index then .cons c (starLoop index (pos + 1) cs w)
    else
      let (s, c', w') := tick c w
      if s = .success then .cons c' (starLoop (index + 1) (pos + 1) cs w')
      else ⟨.failure, 0, c' :: cs, w'⟩
end

end Verif.Trees
