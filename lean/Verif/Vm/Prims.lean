import Verif.Arith

/-!
# Value-level instructions of the VM

The parts of `interpreter/src/vm.rs` `run` that compute on values only.
-/

namespace Quilt.Val

variable {C : Type}

/-- `IndexGet`, `interpreter/src/vm.rs:466-515`. -/
def indexGet (chk : Bool) (value index : Val C) : Res (Val C) :=
  match index with
  | int idx =>
    match value with
    | arr xs _ _ =>
      (fixIndex chk idx xs.length).bind fun i =>
        match xs[i]? with | some v => .ok v | _ => .panic
    | str s =>
      (fixIndex chk idx s.length).bind fun i =>
        match s[i]? with | some c => .ok (str [c]) | _ => .panic
    | color r g b a =>
      (fixIndex chk idx 4).bind fun i =>
        match [r, g, b, a][i]? with
        | some x => .ok (int (x.setWidth 64)) | _ => .panic
    | pair a b =>
      (fixIndex chk idx 2).bind fun i =>
        match [a, b][i]? with | some v => .ok v | _ => .panic
    | v => .err (.type (.expected "indexable" v.ntype))
  | i => .err (.type (.expected "int" i.ntype))

/-- Element pushes of `CreateArray`, `vm.rs:563-567`. -/
def pushAllV (v : Vecc (Val C)) : List (Val C) → Res (Vecc (Val C))
  | [] => .ok v
  | x :: xs =>
    match Vecc.push getSize v x with
    | (.ok (), v') => pushAllV v' xs
    | (.err e, _) => .err e
    | (.panic, _) => .panic

/-- `CreateArray`, `vm.rs:559-572`; `xs` are the popped values, topmost first. -/
def mkArray (lim : Limits) (xs : List (Val C)) : Res (Val C) :=
  (pushAllV (Vecc.new lim.arrMax) xs).map fun v => arr v.data v.size v.maxSize

/-- `CreateRange`, `vm.rs:574-593`; `as i32` keeps the low 32 bits. -/
def mkRange : Val C → Val C → Res (Val C)
  | int a, int b => .ok (range (a.setWidth 32) (b.setWidth 32))
  | int _, b => .err (.type (.expected "int" b.ntype))
  | a, _ => .err (.type (.expected "int" a.ntype))

/-- `Unpack`, `vm.rs:595-638`: the components, first one first (it ends up on top of the stack). -/
def unpack (v : Val C) (argc : Nat) : Res (List (Val C)) :=
  match v with
  | pair a b => if argc = 2 then .ok [a, b] else .err (.type (.insufficientValues 2 argc))
  | arr xs _ _ =>
    if xs.length = argc then .ok xs else .err (.type (.insufficientValues xs.length argc))
  | color r g b a =>
    if argc < 1 then .err (.type (.insufficientValues 4 argc))
    else if argc ≤ 4 then
      .ok ((([r, g, b, a] : List (BitVec 8)).take argc).map fun x => int (x.setWidth 64))
    else .panic
  | v => .err (.type (.unpackable v.ntype))

/-- The item at position `k` of an iterable (`IterNext`, `vm.rs:862-901`); `none` ends the loop.
`k as i32` keeps the low 32 bits; `start + k` overflows in `i32` for very long ranges. -/
def iterItem (chk : Bool) (v : Val C) (k : Nat) : Res (Option (Val C)) :=
  match v with
  | arr xs _ _ => .ok xs[k]?
  | range s e =>
    let n := s.toInt + (BitVec.ofNat 32 k).toInt
    if chk ∧ ¬ (-2 ^ 31 ≤ n ∧ n < 2 ^ 31) then .panic
    else
      let i := BitVec.ofInt 32 n
      .ok (if i.toInt < e.toInt then some (int (i.signExtend 64)) else .none)
  | str s => .ok (s[k]?.map fun c => str [c])
  | color r g b a => .ok (([r, g, b, a] : List (BitVec 8))[k]?.map fun x => int (x.setWidth 64))
  | v => .err (.type (.notIterable v.ntype))

end Quilt.Val
