import Verif.Compiler.Fits

/-!
# How many stack slots a program needs

A specification over syntax trees; there is no counterpart in `/repo`. The machine keeps operands and locals on one stack of bounded
size (`interpreter/src/vm.rs:14-27`, `:1173-1183`); `Node.room` is the number of slots above the current top that the evaluation of a
node uses, not counting the frames of the functions it calls.
-/

namespace Quilt

/-- Slots that stay occupied after a statement of a block: those of the locals it declares. -/
def Node.loc : Node → Nat
  | .decl _ v _ => v.count
  | .func .. => 1
  | _ => 0

mutual
/-- Slots used by the evaluation of a node. Operands wait on the stack: the second one is evaluated while the first one is there
(for an index expression the index comes first, the items of an array are evaluated from the last one to the first). A conditional
and a loop keep their result so far below the condition; a `for` loop keeps its counter and the iterated value there as well. -/
def Node.room : Node → Nat
  | .lit .. | .ident .. | .lambda .. | .func .. => 1
  | .pair _ a b | .range _ a b | .bin _ _ a b => max a.room (1 + b.room)
  | .index _ e i => max i.room (1 + e.room)
  | .array _ items => max 1 (roomRev items)
  | .call _ f args => max f.room (1 + roomArgs args)
  | .builtin _ _ args => max 1 (roomArgs args)
  | .ctx _ _ args v body => max (max 1 (roomArgs args)) (varCount v + roomL false body)
  | .block _ body => roomL false body
  | .cond _ c th el => max (1 + c.room) (max (roomL false th) (roomO el))
  | .switch _ v cs d => max (max 2 (1 + v.room)) (max (roomC cs) (roomO d))
  | .while _ c body => max (1 + c.room) (roomL false body)
  | .forIn _ _ it body => max (1 + it.room) (max 4 (3 + roomL false body))
  | .forMulti _ xs it body => max (1 + it.room) (max 4 (2 + xs.length + roomL false body))
  | .assign _ _ e | .un _ _ e | .extern _ _ e => e.room
  | .decl _ v e => max e.room v.count
  | .ret _ e => roomE e
  | .include _ _ b => roomI b
termination_by structural n => n
/-- Statements; at top level declarations make globals, which are not on the stack. -/
def roomL (top : Bool) : List Node → Nat
  | [] => 0
  | n :: ns => max n.room ((if top then 0 else n.loc) + roomL top ns)
termination_by structural n => n
def roomArgs : List Node → Nat
  | [] => 0
  | n :: ns => max n.room (1 + roomArgs ns)
termination_by structural n => n
def roomRev : List Node → Nat
  | [] => 0
  | n :: ns => max (roomRev ns) (ns.length + n.room)
termination_by structural n => n
def roomC : List (Node × List Node) → Nat
  | [] => 0
  | (c, b) :: cs => max (max (2 + c.room) (roomL false b)) (roomC cs)
termination_by structural n => n
def roomO : Option (List Node) → Nat
  | some b => roomL false b
  | none => 0
termination_by structural n => n
def roomE : Option Node → Nat
  | some e => e.room
  | none => 1
termination_by structural n => n
def roomI : Option (List Node) → Nat
  | some b => roomL true b
  | none => 0
termination_by structural n => n
end

/-- Slots of a call: the function itself, its arguments, and what its body needs. -/
def frameRoom (params : Nat) (body : List Node) : Nat := params + 1 + roomL false body

mutual
/-- The largest frame of the functions written in a node. -/
def Node.frames : Node → Nat
  | .lit .. | .ident .. => 0
  | .lambda _ ps body => max (frameRoom ps.length body) (framesL body)
  | .func _ _ ps body => max (frameRoom ps.length body) (framesL body)
  | .pair _ a b | .range _ a b | .bin _ _ a b => max a.frames b.frames
  | .index _ e i => max i.frames e.frames
  | .array _ items => framesL items
  | .call _ f args => max f.frames (framesL args)
  | .builtin _ _ args => framesL args
  | .ctx _ _ args _ body => max (framesL args) (framesL body)
  | .block _ body => framesL body
  | .cond _ c th el => max c.frames (max (framesL th) (framesO el))
  | .switch _ v cs d => max v.frames (max (framesC cs) (framesO d))
  | .while _ c body => max c.frames (framesL body)
  | .forIn _ _ it body => max it.frames (framesL body)
  | .forMulti _ _ it body => max it.frames (framesL body)
  | .assign _ _ e | .un _ _ e | .extern _ _ e => e.frames
  | .decl _ _ e => e.frames
  | .ret _ e => framesE e
  | .include _ _ b => framesO b
termination_by structural n => n
def framesL : List Node → Nat
  | [] => 0
  | n :: ns => max n.frames (framesL ns)
termination_by structural n => n
def framesC : List (Node × List Node) → Nat
  | [] => 0
  | (c, b) :: cs => max (max c.frames (framesL b)) (framesC cs)
termination_by structural n => n
def framesO : Option (List Node) → Nat
  | some b => framesL b
  | none => 0
termination_by structural n => n
def framesE : Option Node → Nat
  | some e => e.frames
  | none => 0
termination_by structural n => n
end

/-- The largest frame of a program: of the main program, which has a frame like a function without parameters, and of its functions. -/
def frameSize (ast : List Node) : Nat := max (1 + roomL true ast) (framesL ast)

end Quilt
