import Verif.Ir
/-
Model of the control-flow graph of the LLVM front end: `setupBlocks` (`metalift/analysis.py` 54-77),
the removal of back edges by `LoopInfo` (`metalift/frontend/llvm.py` 452-455), and the
pass `llvm-pass/addEmptyBlocks/AddEmptyBlocks.cpp`.

The instructions of a block other than the last one do not matter here; they are a parameter `α`.
-/
namespace Metalift.Ll

/-- The last instruction of a block.  The condition of a branch and the operand of a return are of type `β`. -/
inductive Term (β : Type) where
  | br (t : String)
  | cbr (c : β) (t f : String)
  | switch (c : β) (dflt : String) (cases : List (Int × String))
  | ret (v : Option β)
  | other (opcode : String)

/-- Basic block as delivered by llvmlite: name, instructions, last instruction. -/
structure RawBlk (α β : Type) where
  name : String
  insts : List α
  term : Term β

/-- `Block` (`metalift/vc.py`): a basic block with the lists `succs` and `preds`; the references to
other blocks are represented by their names, which are the keys of the dictionary `bbs`. -/
structure Blk (α β : Type) where
  name : String
  insts : List α
  term : Term β
  succs : List String
  preds : List String

/-- Targets of the last instruction (`metalift/analysis.py` 59-69).  The operands of a conditional branch are
the condition, the false target, the true target (see `metalift/frontend/llvm.py` 1389-1391), those
of a `switch` the condition, the default target, and then value and target of every case.
`none` is the exception "Unknown end block inst". -/
def Term.targets {β : Type} : Term β → Option (List String)
  | .br t => some [t]
  | .cbr _ t f => some [f, t]
  | .switch _ d cs => some (d :: cs.map Prod.snd)
  | .ret _ => some []
  | .other _ => none

variable {α β : Type}

/-- `dict((b.name, Block(...)) for b in blks)` (`metalift/analysis.py` 55): a later block with the same
name replaces the earlier one at the earlier one's position. -/
def blkDict : List (Blk α β) → Blk α β → List (Blk α β)
  | [], b => [b]
  | c :: cs, b => if c.name = b.name then b :: cs else c :: blkDict cs b

/-- `bbs[name]` updated by `f`; `none` is the `KeyError`. -/
def updBlk (f : Blk α β → Blk α β) (n : String) : List (Blk α β) → Option (List (Blk α β))
  | [] => none
  | c :: cs => if c.name = n then some (f c :: cs) else (updBlk f n cs).map (c :: ·)

/-- `bbs[t.name].preds.append(b)` (`metalift/analysis.py` 74). -/
def addPred (b : String) (c : Blk α β) : Blk α β := { c with preds := c.preds ++ [b] }

/-- The loop of lines 73-74. -/
def addPreds (b : String) (targets : List String) (bbs : List (Blk α β)) : Option (List (Blk α β)) :=
  targets.foldlM (fun bbs t => updBlk (addPred b) t bbs) bbs

/-- One iteration of the loop of lines 57-74 for the block with name `n`. -/
def setupOne (bbs : List (Blk α β)) (n : String) : Option (List (Blk α β)) := do
  let b ← bbs.find? (fun c => c.name = n)
  let targets ← b.term.targets
  if targets.all (fun t => bbs.any (fun c => c.name = t)) then
    let bbs ← updBlk (fun c => { c with succs := targets }) n bbs
    addPreds n targets bbs
  else none

/-- `setupBlocks` (`metalift/analysis.py` 54-77). -/
def setupBlocks (blks : List (RawBlk α β)) : Option (List (Blk α β)) :=
  let bbs : List (Blk α β) := blks.foldl (fun d b => blkDict d ⟨b.name, b.insts, b.term, [], []⟩) []
  (bbs.map Blk.name).foldlM setupOne bbs

/-- `list.remove` (raises if the element does not occur). -/
def pyRemove (l : List String) (x : String) : Option (List String) :=
  if x ∈ l then some (l.erase x) else none

/-- Update of a block that may raise. -/
def updBlkM (f : Blk α β → Option (Blk α β)) (n : String) : List (Blk α β) → Option (List (Blk α β))
  | [] => none
  | c :: cs => if c.name = n then (f c).map (· :: cs) else (updBlkM f n cs).map (c :: ·)

/-- `LoopInfo.__init__`, removal of the back edges of one loop (`metalift/frontend/llvm.py` 452-455). -/
def removeBackEdges (header : String) (latches : List String) (bbs : List (Blk α β)) :
    Option (List (Blk α β)) :=
  latches.foldlM (fun bbs l => do
    let bbs ← updBlkM (fun c => (pyRemove c.succs header).map fun s => { c with succs := s }) l bbs
    updBlkM (fun c => (pyRemove c.preds l).map fun p => { c with preds := p }) header bbs) bbs

/-! ### The pass that adds empty blocks -/

/-- The blocks created for one block and its new last instruction (`AddEmptyBlocks.cpp` 38-44 and 55-65).
`fresh b i` is the name given by the pass `-instnamer` to the `i`-th block created for `b`.
The update of PHI nodes (60-61) is not modelled: the front end rejects `phi`. -/
def splitTerm (fresh : String → Nat → String) (b : RawBlk α β) : RawBlk α β × List (RawBlk α β) :=
  match b.term with
  | .cbr c t f =>
    ({ b with term := .cbr c (fresh b.name 0) (fresh b.name 1) },
      [⟨fresh b.name 0, [], .br t⟩, ⟨fresh b.name 1, [], .br f⟩])
  | _ => (b, [])

/-- `runOnFunction` (`AddEmptyBlocks.cpp` 46-79): new blocks are appended to the function, then every conditional
branch is replaced.  The loop also runs over the new blocks, which end in unconditional branches. -/
def addEmptyBlocks (fresh : String → Nat → String) (F : List (RawBlk α β)) : List (RawBlk α β) :=
  F.map (fun b => (splitTerm fresh b).1) ++ F.flatMap (fun b => (splitTerm fresh b).2)

end Metalift.Ll
