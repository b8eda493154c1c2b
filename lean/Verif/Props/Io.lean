import Verif.Lib.Io
import Verif.Props.Strings
import Verif.Props.Values
import Verif.Props.Std
import Verif.Check.Env
import Verif.Lib.Ieee

/-!
# Input, output, random numbers and time: C63

For every sequence of answers from the outside (`Outside`).
-/

namespace Quilt.Props

open Lib

variable {C : Type}

/-- A call of a builtin of the whole standard library, by name: the result and what it does outside. -/
def callIo (L : Ops) (O : Outside) (chk : Bool) (cname : C → String) (lim : Limits) (d : Io) (name : String) (args : List (Val C)) : Option (Res (Val C) × Io) :=
  ((stdioLib L cname O chk).lookup name).map fun f => f d args lim

variable (L : Ops) (O : Outside) (chk : Bool) (cname : C → String) (lim : Limits) (d : Io)

/-- The answers, with one of them replaced. -/
def answering (O : Outside) (n : Nat) (r : BitVec 64) : Outside := { O with rand := fun i => if i = n then r else O.rand i }

theorem lookup_append {α β : Type} [BEq α] (x : α) (l m : List (α × β)) : (l ++ m).lookup x = (l.lookup x).or (m.lookup x) := by
  induction l with
  | nil => simp
  | cons p l ih =>
    obtain ⟨y, b⟩ := p
    simp only [List.cons_append, List.lookup_cons]
    split <;> simp_all

theorem lookup_names {β : Type} (x : String) (l : List (String × β)) (h : x ∉ l.map Prod.fst) : l.lookup x = none := by
  induction l with
  | nil => rfl
  | cons p l ih =>
    obtain ⟨y, b⟩ := p
    simp only [List.map_cons, List.mem_cons, not_or] at h
    rw [List.lookup_cons, beq_eq_false_iff_ne.2 h.1, ih h.2]

theorem mem_of_lookup {β : Type} {x : String} {l : List (String × β)} {b : β} (h : l.lookup x = some b) : (x, b) ∈ l := by
  induction l with
  | nil => simp at h
  | cons p l ih =>
    obtain ⟨y, c⟩ := p
    rw [List.lookup_cons] at h
    split at h
    · next hx => cases h; rw [eq_of_beq hx]; exact List.mem_cons_self
    · exact List.mem_cons_of_mem _ (ih h)

section
variable {L : Ops} {O : Outside} {chk : Bool} {cname : C → String} {lim : Limits} {d : Io} {name : String} {f : BFn Io C}

private theorem std_none (h : stdNames.contains name = false) : (stdLib L chk cname : List (String × BFn Io C)).lookup name = none :=
  lookup_names _ _ (by rw [std_names]; simpa using h)

private theorem callIo_of (name : String) (args : List (Val C)) (h : ((randLib L O ++ randColorLib L O ++ timeLib L O ++ ioLib L cname O ++ compareLib L cname O).lookup name) = some f)
    (hn : stdNames.contains name = false := by decide) : callIo L O chk cname lim d name args = some (f d args lim) := by
  unfold callIo stdioLib
  rw [List.append_assoc, List.append_assoc, List.append_assoc, List.append_assoc, lookup_append, std_none hn, Option.none_or]
  simp only [List.append_assoc] at h
  rw [h]
  rfl
end

private theorem io_rest (body : Params C [.rest] → Io → Res (Val C) × Io) (args : List (Val C)) : builtinIo L [.rest] body d args lim = body (args, ()) d := by
  have h : takeReq L [.rest] (Args.new args) = .ok ((args, ()), ⟨args, args.length⟩) := by
    show Res.ok (((if 0 = args.length then [] else args.drop 0), ()), _) = _
    cases args <;> rfl
  unfold builtinIo
  rw [h]
  have : (Args.stop ⟨args, args.length⟩ : Res Unit) = .ok () := by simp [Args.stop, Args.next]
  simp only [Res.bind_ok, this]
  rfl

/-! ## Output -/

/-- What the printing builtins print: the texts of the values with a space after each. -/
inductive Printed (L : Ops) (cname : C → String) : List (Val C) → List Char → Prop
  | nil : Printed L cname [] []
  | cons (v : Val C) {vs : List (Val C)} {t : List Char} (h : Printed L cname vs t) : Printed L cname (v :: vs) (v.text L.F cname ++ ' ' :: t)

private theorem printed_spec : ∀ vs : List (Val C), Printed L cname vs (printed L cname vs)
  | [] => .nil
  | v :: vs => by
    have := Printed.cons v (printed_spec vs)
    simpa [printed] using this

/-- `@print`, `@println` and `@debug` return nothing, ask nothing, and add to the output. -/
theorem C63_print (vs : List (Val C)) : ∃ t, Printed L cname vs t ∧
    callIo L O chk cname lim d "print" vs = some (.ok .none, ⟨d.out ++ t, d.asked⟩) ∧
    callIo L O chk cname lim d "println" vs = some (.ok .none, ⟨d.out ++ (t ++ ['\n']), d.asked⟩) ∧
    callIo L O chk cname lim d "debug" vs = some (.ok .none, ⟨d.out ++ ("\x1b[38;5;208mDEBUG: ".toList ++ t ++ "\x1b[0m\n".toList), d.asked⟩) :=
  ⟨_, printed_spec L cname vs, (callIo_of "print" vs rfl).trans (by rw [io_rest]; rfl), (callIo_of "println" vs rfl).trans (by rw [io_rest]; rfl),
    (callIo_of "debug" vs rfl).trans (by rw [io_rest]; rfl)⟩

/-- The builtins that do not act on the outside (`stdNames`): the result depends on the arguments and the limits only. -/
structure Quiet (f : BFn Io C) : Prop where
  of : ∃ g : List (Val C) → Limits → Res (Val C), ∀ d args lim, f d args lim = (g args lim, d)

private theorem quiet_builtin {req : List PKind} {opt : OptParams C} {body} : Quiet (builtin L req opt body) := ⟨_, fun _ _ _ => rfl⟩

theorem quiet_std {p : String × BFn Io C} (hp : p ∈ stdLib L chk cname) : Quiet p.2 := by
  have cons : ∀ {x : String} {f : BFn Io C} {l : List (String × BFn Io C)}, Quiet f → (∀ p ∈ l, Quiet p.2) → ∀ p ∈ (x, f) :: l, Quiet p.2 := by
    intro x f l h1 h2 p hp
    rcases List.mem_cons.1 hp with rfl | hp
    · exact h1
    · exact h2 p hp
  have core : ∀ p ∈ (coreLib L chk cname : List (String × BFn Io C)), Quiet p.2 := by
    unfold coreLib
    repeat' refine cons (quiet_builtin L) ?_
    simp
  have math : ∀ p ∈ (mathLib L chk : List (String × BFn Io C)), Quiet p.2 := by
    unfold mathLib
    repeat' refine cons (quiet_builtin L) ?_
    simp
  have color : ∀ p ∈ (colorLib L : List (String × BFn Io C)), Quiet p.2 := by
    unfold colorLib
    repeat' refine cons (quiet_builtin L) ?_
    simp
  have string : ∀ p ∈ (stringLib L cname : List (String × BFn Io C)), Quiet p.2 := by
    unfold stringLib
    repeat' refine cons (quiet_builtin L) ?_
    simp
  have test : ∀ p ∈ (testLib L : List (String × BFn Io C)), Quiet p.2 := by
    unfold testLib
    repeat' refine cons (quiet_builtin L) ?_
    simp
  unfold stdLib at hp
  simp only [List.mem_append] at hp
  rcases hp with (((hp | hp) | hp) | hp) | hp
  · exact core p hp
  · exact math p hp
  · exact color p hp
  · exact string p hp
  · exact test p hp

theorem C63_quiet (name : String) (hn : name ∈ stdNames) :
    ∃ g : List (Val C) → Limits → Res (Val C), ∀ O d args lim, callIo L O chk cname lim d name args = some (g args lim, d) := by
  have : ∃ f, (stdLib L chk cname : List (String × BFn Io C)).lookup name = some f := by
    cases h : (stdLib L chk cname : List (String × BFn Io C)).lookup name with
    | some f => exact ⟨f, rfl⟩
    | none =>
      rw [← std_names (D := Io) L chk cname, List.mem_map] at hn
      obtain ⟨p, hp, rfl⟩ := hn
      have := List.lookup_eq_none_iff.1 h p hp
      simp at this
  obtain ⟨f, hf⟩ := this
  obtain ⟨g, hg⟩ := quiet_std L chk cname (mem_of_lookup hf)
  refine ⟨g, fun O d args lim => ?_⟩
  unfold callIo stdioLib
  rw [List.append_assoc, List.append_assoc, List.append_assoc, List.append_assoc, lookup_append, hf]
  exact congrArg some (hg ..)

/-- What is added to the output, and that no question is forgotten. -/
structure Grows (d d' : Io) : Prop where
  out : ∃ t, d'.out = d.out ++ t
  asked : d.asked ≤ d'.asked

private theorem Grows.refl {d : Io} : Grows d d := ⟨⟨[], by simp⟩, Nat.le_refl _⟩
private theorem Grows.tick {d d' : Io} (h : Grows d d') : Grows d d'.tick := ⟨h.out, Nat.le_succ_of_le h.asked⟩
private theorem Grows.print {d : Io} {t : List Char} : Grows d (d.print t) := ⟨⟨t, rfl⟩, Nat.le_refl _⟩

private theorem grows_io {req : List PKind} {body : Params C req → Io → Res (Val C) × Io} (h : ∀ xs d, Grows d (body xs d).2) (d : Io) (args : List (Val C)) (lim : Limits) :
    Grows d (builtinIo L req body d args lim).2 := by
  unfold builtinIo
  split
  · exact h ..
  · exact .refl
  · exact .refl

private theorem grows_same (a b : Val C) (d : Io) : Grows d (same L O a b d).2 := by
  unfold same
  split
  · exact .refl
  · exact Grows.refl.tick

/-- Builtins only add to the output. -/
theorem C63_append {p : String × BFn Io C} (hp : p ∈ stdioLib L cname O chk) (args : List (Val C)) :
    (∃ t, (p.2 d args lim).2.out = d.out ++ t) ∧ d.asked ≤ (p.2 d args lim).2.asked := by
  suffices h : Grows d (p.2 d args lim).2 from ⟨h.out, h.asked⟩
  have cons : ∀ {x : String} {f : BFn Io C} {l : List (String × BFn Io C)}, (∀ d args lim, Grows d (f d args lim).2) →
      (∀ p ∈ l, ∀ d args lim, Grows d (p.2 d args lim).2) → ∀ p ∈ (x, f) :: l, ∀ d args lim, Grows d (p.2 d args lim).2 := by
    intro x f l h1 h2 p hp
    rcases List.mem_cons.1 hp with rfl | hp
    · exact h1
    · exact h2 p hp
  have int : ∀ a b d, Grows d (randint O a b d : Res (Val C) × Io).2 := by intros; unfold randint; split <;> first | exact .refl | exact Grows.refl.tick
  have float : ∀ a b d, Grows d (randfloat L O a b d : Res (Val C) × Io).2 := by
    intros; unfold randfloat; split; exact .refl; split <;> first | exact .refl | exact Grows.refl.tick
  have choice : ∀ (l : List (Val C)) d, Grows d (randchoice O l d).2 := by
    intros; unfold randchoice; split; exact .refl; split <;> exact Grows.refl.tick
  have bow : ∀ d, Grows d (randomRainbowColor O d : Res (Val C) × Io).2 := by intros; unfold randomRainbowColor; split <;> exact Grows.refl.tick
  have gnow : ∀ d, Grows d (now O d : Res (Val C) × Io).2 := by intros; unfold now; split <;> exact Grows.refl.tick
  have gdate : ∀ d, Grows d (date O d : Res (Val C) × Io).2 := by intros; unfold date; split <;> exact Grows.refl.tick
  have ginput : ∀ t d, Grows d (input O t d : Res (Val C) × Io).2 := by
    intros; unfold input; dsimp only; split; split <;> exact Grows.print.tick.tick; exact Grows.print.tick
  have gread : ∀ t d, Grows d (readfile O t d : Res (Val C) × Io).2 := by intros; unfold readfile; split <;> exact Grows.refl.tick
  have geq : ∀ a b d, Grows d (assertEq L cname O a b d).2 := by
    intro a b d
    have := grows_same L O a b d
    unfold assertEq
    split <;> simp_all
  have gne : ∀ a b d, Grows d (assertNe L cname O a b d).2 := by
    intro a b d
    have := grows_same L O a b d
    unfold assertNe
    split <;> simp_all
  unfold stdioLib at hp
  simp only [List.mem_append] at hp
  rcases hp with ((((hp | hp) | hp) | hp) | hp) | hp
  · obtain ⟨g, hg⟩ := quiet_std L chk cname hp
    rw [hg]
    exact .refl
  · revert p; unfold randLib
    exact fun {p} hp => cons (grows_io L fun _ _ => Grows.refl.tick) (cons (grows_io L fun _ _ => Grows.refl.tick) (cons (grows_io L fun _ _ => int ..)
      (cons (grows_io L fun _ _ => float ..) (cons (grows_io L fun _ _ => choice ..) (by simp))))) p hp d args lim
  · revert p; unfold randColorLib
    exact fun {p} hp => cons (grows_io L fun _ _ => Grows.refl.tick) (cons (grows_io L fun _ _ => Grows.refl.tick) (cons (grows_io L fun _ _ => bow ..) (by simp))) p hp d args lim
  · revert p; unfold timeLib
    exact fun {p} hp => cons (grows_io L fun _ _ => gnow ..) (cons (grows_io L fun _ _ => gdate ..) (by simp)) p hp d args lim
  · revert p; unfold ioLib
    exact fun {p} hp => cons (grows_io L fun _ _ => Grows.print) (cons (grows_io L fun _ _ => Grows.print) (cons (grows_io L fun _ _ => Grows.print)
      (cons (grows_io L fun _ _ => ginput ..) (cons (grows_io L fun _ _ => gread ..) (by simp))))) p hp d args lim
  · revert p; unfold compareLib
    exact fun {p} hp => cons (grows_io L fun _ _ => geq ..) (cons (grows_io L fun _ _ => gne ..) (by simp)) p hp d args lim

/-! ## Input -/

/-- `@input` prints the prompt and nothing else, and gives the next line without the white space around it. -/
theorem C63_input (prompt : List Char) (hf : O.flush d.asked = true) :
    (∀ line, O.line (d.asked + 1) = some line → ∃ a t b, line = a ++ t ++ b ∧ (∀ c ∈ a ++ b, isSpace c = true) ∧ NoLead t ∧ NoTail t ∧
      callIo L O chk cname lim d "input" [.str prompt] = some (.ok (.str t), ⟨d.out ++ prompt, d.asked + 2⟩)) ∧
    (O.line (d.asked + 1) = none →
      callIo L O chk cname lim d "input" [.str prompt] = some (.err (.builtin "could not read input"), ⟨d.out ++ prompt, d.asked + 2⟩)) := by
  have hc : callIo L O chk cname lim d "input" [.str prompt] = some (input O prompt d) := callIo_of "input" [.str prompt] rfl
  have hf' : O.flush (d.print prompt).asked = true := hf
  refine ⟨fun line hl => ?_, fun hl => ?_⟩
  · obtain ⟨_, _, a, t, b, h1, h2, h3, h4, h5⟩ := C55_trim L chk cname lim line
    refine ⟨a, t, b, h1, h2, h3, h4, ?_⟩
    have h6 : trimEndText (trimStartText line) = t := by
      have : callStd L chk cname lim "trim" [.str line] = some (.ok (.str (trimEndText (trimStartText line)))) := rfl
      rw [this] at h5
      simpa using h5
    have hl' : O.line (d.print prompt).tick.asked = some line := hl
    rw [hc]
    simp only [input, hf', hl', if_true, h6]
    rfl
  · have hl' : O.line (d.print prompt).tick.asked = none := hl
    rw [hc]
    simp only [input, hf', hl', if_true]
    rfl

/-- The end of the input cannot be told from an empty line. -/
theorem C63_violated_end (prompt : List Char) (hf : O.flush d.asked = true) (hl : O.line (d.asked + 1) = some [] ∨ O.line (d.asked + 1) = some ['\n']) :
    callIo L O chk cname lim d "input" [.str prompt] = some (.ok (.str []), ⟨d.out ++ prompt, d.asked + 2⟩) := by
  have hc : callIo L O chk cname lim d "input" [.str prompt] = some (input O prompt d) := callIo_of "input" [.str prompt] rfl
  have hf' : O.flush (d.print prompt).asked = true := hf
  have hl' : O.line (d.print prompt).tick.asked = some [] ∨ O.line (d.print prompt).tick.asked = some ['\n'] := hl
  rw [hc]
  rcases hl' with hl | hl <;> simp only [input, hf', hl, if_true] <;> rfl

/-- `@readfile` gives the text of the file as it is, or an error. -/
theorem C63_readfile (path : List Char) :
    (∀ t, O.file d.asked path = .ok t → callIo L O chk cname lim d "readfile" [.str path] = some (.ok (.str t), ⟨d.out, d.asked + 1⟩)) ∧
    (∀ e, O.file d.asked path = .error e →
      callIo L O chk cname lim d "readfile" [.str path] = some (.err (.builtin (String.ofList ("could not read file: ".toList ++ e))), ⟨d.out, d.asked + 1⟩)) := by
  have hc : callIo L O chk cname lim d "readfile" [.str path] = some (readfile O path d) := callIo_of "readfile" [.str path] rfl
  refine ⟨fun t h => ?_, fun e h => ?_⟩ <;> rw [hc] <;> simp only [readfile, h] <;> rfl

/-- Neither respects the limit on the size of strings. -/
theorem C63_violated_size (O₀ : Outside) (lim₀ : Limits) : ∃ (O : Outside) (lim : Limits) (t : List Char), lim.strMax = 0 ∧ t ≠ [] ∧
    callIo L O chk cname lim d "readfile" [.str []] = some (.ok (.str t), ⟨d.out, d.asked + 1⟩) ∧
    callIo L O chk cname lim d "input" [.str []] = some (.ok (.str t), ⟨d.out ++ [], d.asked + 2⟩) := by
  refine ⟨{ O₀ with flush := fun _ => true, line := fun _ => some ['x'], file := fun _ _ => .ok ['x'] }, { lim₀ with strMax := 0 }, ['x'], rfl, by simp, ?_, ?_⟩
  · exact callIo_of "readfile" [.str []] rfl
  · exact callIo_of "input" [.str []] rfl

/-! ## Random numbers -/

/-- `@randint(a, b)`: a number from `a` to below `b`, and each of them is possible; an error if there is none. -/
theorem C63_randint (a b : BitVec 64) :
    (b.toInt ≤ a.toInt → callIo L O chk cname lim d "randint" [.int a, .int b] = some (.err (.builtin "start must be less than end"), d)) ∧
    (a.toInt < b.toInt → ∃ i : BitVec 64, a.toInt ≤ i.toInt ∧ i.toInt < b.toInt ∧
      callIo L O chk cname lim d "randint" [.int a, .int b] = some (.ok (.int i), ⟨d.out, d.asked + 1⟩)) ∧
    ∀ i : BitVec 64, a.toInt ≤ i.toInt → i.toInt < b.toInt →
      ∃ r, callIo L (answering O d.asked r) chk cname lim d "randint" [.int a, .int b] = some (.ok (.int i), ⟨d.out, d.asked + 1⟩) := by
  have hc : ∀ O, callIo L O chk cname lim d "randint" [.int a, .int b] = some (randint O a b d) := fun O => callIo_of "randint" [.int a, .int b] rfl
  have ha := BitVec.toInt_lt (x := a)
  have ha' := BitVec.le_toInt (x := a)
  have hb := BitVec.toInt_lt (x := b)
  have hb' := BitVec.le_toInt (x := b)
  simp only [hc]
  refine ⟨fun h => ?_, fun h => ?_, fun i h1 h2 => ?_⟩
  · rw [randint, if_pos h]
    rfl
  · rw [randint, if_neg (by omega)]
    have hm := Int.emod_lt_of_pos (O.rand d.asked).toNat (show 0 < b.toInt - a.toInt by omega)
    have hn := Int.emod_nonneg (O.rand d.asked).toNat (show b.toInt - a.toInt ≠ 0 by omega)
    refine ⟨_, ?_, ?_, rfl⟩ <;> rw [BitVec.toInt_ofInt_eq_self (by decide) (by omega) (by omega)] <;> omega
  · refine ⟨BitVec.ofInt 64 (i.toInt - a.toInt), ?_⟩
    rw [randint, if_neg (by omega)]
    have : (((answering O d.asked (BitVec.ofInt 64 (i.toInt - a.toInt))).rand d.asked).toNat : Int) = i.toInt - a.toInt := by
      simp only [answering, if_true, BitVec.toNat_ofInt]
      omega
    rw [this, Int.emod_eq_of_lt (by omega) (by omega), show a.toInt + (i.toInt - a.toInt) = i.toInt by omega, BitVec.ofInt_toInt]
    rfl

/-- `@randchoice`: an item of the list, and each of them is possible; an error if there is none. It never panics. -/
theorem C63_randchoice (l : List (Val C)) (s m : Nat) :
    (l = [] → callIo L O chk cname lim d "randchoice" [.arr l s m] = some (.err (.builtin "list must not be empty"), d)) ∧
    (l ≠ [] → ∃ v ∈ l, callIo L O chk cname lim d "randchoice" [.arr l s m] = some (.ok v, ⟨d.out, d.asked + 1⟩)) ∧
    (l.length < 2 ^ 64 → ∀ v ∈ l, ∃ r, callIo L (answering O d.asked r) chk cname lim d "randchoice" [.arr l s m] = some (.ok v, ⟨d.out, d.asked + 1⟩)) := by
  have hc : ∀ O, callIo L O chk cname lim d "randchoice" [.arr l s m] = some (randchoice O l d) := fun O => callIo_of "randchoice" [.arr l s m] rfl
  simp only [hc]
  refine ⟨fun h => ?_, fun h => ?_, fun hlen v hv => ?_⟩
  · rw [randchoice, if_pos h]
    rfl
  · have hlt : (O.rand d.asked).toNat % l.length < l.length := Nat.mod_lt _ (List.length_pos_iff.2 h)
    refine ⟨_, List.getElem_mem hlt, ?_⟩
    rw [randchoice, if_neg h, List.getElem?_eq_getElem hlt]
    rfl
  · obtain ⟨n, hn, rfl⟩ := List.getElem_of_mem hv
    refine ⟨BitVec.ofNat 64 n, ?_⟩
    have : ((answering O d.asked (BitVec.ofNat 64 n)).rand d.asked).toNat = n := by
      simp only [answering, if_true, BitVec.toNat_ofNat]
      omega
    rw [randchoice, if_neg (List.ne_nil_of_mem hv), this, Nat.mod_eq_of_lt hn, List.getElem?_eq_getElem hn]
    rfl

/-- `@randbool`: both are possible. -/
theorem C63_randbool : (∃ b, callIo L O chk cname lim d "randbool" ([] : List (Val C)) = some (.ok (.bool b), ⟨d.out, d.asked + 1⟩)) ∧
    ∀ b, ∃ r, callIo L (answering O d.asked r) chk cname lim d "randbool" ([] : List (Val C)) = some (.ok (.bool b), ⟨d.out, d.asked + 1⟩) := by
  have hc : ∀ O, callIo L O chk cname lim d "randbool" ([] : List (Val C)) = some (randbool O d) := fun O => callIo_of "randbool" [] rfl
  simp only [hc]
  refine ⟨⟨_, rfl⟩, fun b => ⟨if b then BitVec.allOnes 64 else 0, ?_⟩⟩
  cases b <;> simp only [randbool, answering, if_true] <;> rfl

/-- `@randfloat`: an error if the end is not greater than the start; a number of the generator if the length of the range is a
finite float; otherwise a panic. -/
theorem C63_randfloat (x y : BitVec 64) :
    callIo L O chk cname lim d "randfloat" [.float x, .float y] = some (
      if L.F.le y x then (.err (.builtin "start must be less than end"), d)
      else if L.F.lt x y && O.finite (L.F.sub y x) then (.ok (.float (O.between (O.rand d.asked) x y)), ⟨d.out, d.asked + 1⟩)
      else (.panic, d)) :=
  callIo_of "randfloat" [.float x, .float y] rfl

/-- A range of NaN aborts the program. -/
theorem C63_violated_randfloat (x y : BitVec 64) (h1 : L.F.le y x = false) (h2 : L.F.lt x y = false) :
    callIo L O chk cname lim d "randfloat" [.float x, .float y] = some (.panic, d) := by
  rw [C63_randfloat, h1, h2]
  rfl

/-- The random colours are opaque; each opaque colour is possible, and so is each colour of the rainbow. -/
theorem C63_random_color :
    (∃ r g b, callIo L O chk cname lim d "random_color" ([] : List (Val C)) = some (.ok (.color r g b 255), ⟨d.out, d.asked + 1⟩)) ∧
    (∃ r g b, callIo L O chk cname lim d "random_pastel_color" ([] : List (Val C)) = some (.ok (.color r g b 255), ⟨d.out, d.asked + 1⟩)) ∧
    (∃ v ∈ (rainbow : List (Val C)), callIo L O chk cname lim d "random_rainbow_color" ([] : List (Val C)) = some (.ok v, ⟨d.out, d.asked + 1⟩)) ∧
    (∀ r g b, ∃ x, callIo L (answering O d.asked x) chk cname lim d "random_color" ([] : List (Val C)) = some (.ok (.color r g b 255), ⟨d.out, d.asked + 1⟩)) ∧
    (∀ v ∈ (rainbow : List (Val C)), ∃ x, callIo L (answering O d.asked x) chk cname lim d "random_rainbow_color" ([] : List (Val C)) = some (.ok v, ⟨d.out, d.asked + 1⟩)) := by
  have h1 : ∀ O, callIo L O chk cname lim d "random_color" ([] : List (Val C)) = some (randomColor O d) := fun O => callIo_of "random_color" [] rfl
  have h2 : ∀ O, callIo L O chk cname lim d "random_pastel_color" ([] : List (Val C)) = some (randomPastelColor L O d) := fun O => callIo_of "random_pastel_color" [] rfl
  have h3 : ∀ O, callIo L O chk cname lim d "random_rainbow_color" ([] : List (Val C)) = some (randomRainbowColor O d) := fun O => callIo_of "random_rainbow_color" [] rfl
  simp only [h1, h2, h3]
  refine ⟨⟨_, _, _, rfl⟩, ⟨_, _, _, rfl⟩, ?_, fun r g b => ?_, fun v hv => ?_⟩
  · have hlt : (O.rand d.asked).toNat % 10 < (rainbow : List (Val C)).length := Nat.mod_lt _ (by decide)
    refine ⟨_, List.getElem_mem hlt, ?_⟩
    rw [randomRainbowColor, List.getElem?_eq_getElem hlt]
    rfl
  · refine ⟨BitVec.ofNat 64 (r.toNat + 2 ^ 8 * g.toNat + 2 ^ 16 * b.toNat), ?_⟩
    have hr := r.isLt
    have hg := g.isLt
    have hb := b.isLt
    simp only [randomColor, answering, if_true]
    congr 4
    all_goals
      try (congr 1)
      try (apply BitVec.eq_of_toNat_eq
           simp only [BitVec.toNat_setWidth, BitVec.toNat_ushiftRight, BitVec.toNat_ofNat, Nat.shiftRight_eq_div_pow]
           omega)
  · obtain ⟨n, hn, rfl⟩ := List.getElem_of_mem hv
    have hn' : n < 10 := hn
    refine ⟨BitVec.ofNat 64 n, ?_⟩
    have : ((answering O d.asked (BitVec.ofNat 64 n)).rand d.asked).toNat = n := by
      simp only [answering, if_true, BitVec.toNat_ofNat]
      omega
    rw [randomRainbowColor, this, Nat.mod_eq_of_lt hn', List.getElem?_eq_getElem hn]
    rfl

/-! ## Time -/

/-- `@now` is the time in seconds, or an error if the clock is set to a time before 1970. -/
theorem C63_now : callIo L O chk cname lim d "now" ([] : List (Val C)) = some (match O.clock d.asked with
    | some t => (.ok (.float (O.secs t)), ⟨d.out, d.asked + 1⟩)
    | none => (.err (.builtin "failed to get time"), ⟨d.out, d.asked + 1⟩)) := by
  have hc : callIo L O chk cname lim d "now" ([] : List (Val C)) = some (now O d) := callIo_of "now" [] rfl
  rw [hc, now]
  cases O.clock d.asked <;> rfl

/-- `@date` ends with the time of day (in UTC): with `days` days, `h` hours, `m` minutes, `s` seconds since 1970, the text
ends with `h:m:s`, without leading zeros. -/
theorem C63_date_partial (days h m s ns : Nat) (hh : h < 24) (hm : m < 60) (hs : s < 60) (hns : ns < 1000000000)
    (ht : O.clock d.asked = some ((((days * 24 + h) * 60 + m) * 60 + s) * 1000000000 + ns)) :
    ∃ date : List Char, (∀ h' m' s' ns', h' < 24 → m' < 60 → s' < 60 → ns' < 1000000000 → ∀ O : Outside,
        O.clock d.asked = some ((((days * 24 + h') * 60 + m') * 60 + s') * 1000000000 + ns') →
        callIo L O chk cname lim d "date" ([] : List (Val C)) =
          some (.ok (.str (date ++ [' '] ++ showNat h' ++ [':'] ++ showNat m' ++ [':'] ++ showNat s')), ⟨d.out, d.asked + 1⟩)) ∧
      callIo L O chk cname lim d "date" ([] : List (Val C)) =
        some (.ok (.str (date ++ [' '] ++ showNat h ++ [':'] ++ showNat m ++ [':'] ++ showNat s)), ⟨d.out, d.asked + 1⟩) := by
  have hc : ∀ O, callIo L O chk cname lim d "date" ([] : List (Val C)) = some (Lib.date O d) := fun O => callIo_of "date" [] rfl
  suffices key : ∃ date : List Char, ∀ h' m' s' ns', h' < 24 → m' < 60 → s' < 60 → ns' < 1000000000 → ∀ O : Outside,
      O.clock d.asked = some ((((days * 24 + h') * 60 + m') * 60 + s') * 1000000000 + ns') →
      callIo L O chk cname lim d "date" ([] : List (Val C)) =
        some (.ok (.str (date ++ [' '] ++ showNat h' ++ [':'] ++ showNat m' ++ [':'] ++ showNat s')), ⟨d.out, d.asked + 1⟩) by
    obtain ⟨date, h1⟩ := key
    exact ⟨date, h1, h1 h m s ns hh hm hs hns O ht⟩
  refine ⟨showNat (1970 + days / 365) ++ ['-'] ++ showNat (days % 365 / 30) ++ ['-'] ++ showNat (days % 365 % 30), fun h m s ns hh hm hs hns O ht => ?_⟩
  have e1 : ((((days * 24 + h) * 60 + m) * 60 + s) * 1000000000 + ns) / 1000000000 = ((days * 24 + h) * 60 + m) * 60 + s := by omega
  have e2 : (((days * 24 + h) * 60 + m) * 60 + s) / 60 = (days * 24 + h) * 60 + m := by omega
  have e3 : ((days * 24 + h) * 60 + m) / 60 = days * 24 + h := by omega
  have e4 : (days * 24 + h) / 24 = days := by omega
  have e5 : (days * 24 + h) % 24 = h := by omega
  have e6 : ((days * 24 + h) * 60 + m) % 60 = m := by omega
  have e7 : (((days * 24 + h) * 60 + m) * 60 + s) % 60 = s := by omega
  rw [hc]
  simp only [Lib.date, ht, e1, dateText, e2, e3, e4, e5, e6, e7]
  rfl

/-- The leap years of the Gregorian calendar. -/
def leap (y : Nat) : Bool := y % 4 = 0 && (y % 100 ≠ 0 || y % 400 = 0)

/-- The day after a day of the Gregorian calendar: year, month, day. -/
def nextDay : Nat × Nat × Nat → Nat × Nat × Nat
  | (y, m, d) =>
    let last := if m = 2 then (if leap y then 29 else 28) else if m ∈ [4, 6, 9, 11] then 30 else 31
    if d < last then (y, m, d + 1) else if m < 12 then (y, m + 1, 1) else (y + 1, 1, 1)

/-- The day so many days after the first of January 1970. -/
def dayAfter : Nat → Nat × Nat × Nat
  | 0 => (1970, 1, 1)
  | n + 1 => nextDay (dayAfter n)

/-- The date is wrong: years have 365 days, months 30, and both months and days count from 0. Shown for the first and the
last day of January 1970 and for the last day of 1972, which is in 1973 already. -/
theorem C63_violated_date (hO : ∀ n, O.clock n = some (n * (86400 * 1000000000))) :
    dayAfter 0 = (1970, 1, 1) ∧ callIo L O chk cname lim ⟨[], 0⟩ "date" ([] : List (Val C)) = some (.ok (.str "1970-0-0 0:0:0".toList), ⟨[], 1⟩) ∧
    dayAfter 30 = (1970, 1, 31) ∧ callIo L O chk cname lim ⟨[], 30⟩ "date" ([] : List (Val C)) = some (.ok (.str "1970-1-0 0:0:0".toList), ⟨[], 31⟩) ∧
    dayAfter 1095 = (1972, 12, 31) ∧ callIo L O chk cname lim ⟨[], 1095⟩ "date" ([] : List (Val C)) = some (.ok (.str "1973-0-0 0:0:0".toList), ⟨[], 1096⟩) := by
  have hc : ∀ d, callIo L O chk cname lim d "date" ([] : List (Val C)) = some (Lib.date O d) := fun O => callIo_of "date" [] rfl
  have t1 : dateText (0 * (86400 * 1000000000) / 1000000000) = "1970-0-0 0:0:0".toList := by decide +kernel
  have t2 : dateText (30 * (86400 * 1000000000) / 1000000000) = "1970-1-0 0:0:0".toList := by decide +kernel
  have t3 : dateText (1095 * (86400 * 1000000000) / 1000000000) = "1973-0-0 0:0:0".toList := by decide +kernel
  refine ⟨rfl, ?_, by decide +kernel, ?_, by decide +kernel, ?_⟩
  · rw [hc, Lib.date, hO]; simp only [t1]; rfl
  · rw [hc, Lib.date, hO]; simp only [t2]; rfl
  · rw [hc, Lib.date, hO]; simp only [t3]; rfl

/-! ## Assertions -/

/-- `@assert_eq` and `@assert_ne` follow `==`, for values whose comparison does not come to functions; the message has both values. -/
theorem C63_assert (cfg : Cfg) (hF : cfg.F = L.F) (a b : Val C) (r : Bool) (h : Val.binary cfg lim (fun _ _ => none) .eq a b = .ok (.bool r)) :
    callIo L O chk cname lim d "assert_eq" [a, b] = some (if r = true then .ok .none else .err (.builtin (String.ofList
      ("assertion failed: `(left == right)`\n  left: `".toList ++ a.text L.F cname ++ "`\n right: `".toList ++ b.text L.F cname ++ "`".toList))), d) ∧
    callIo L O chk cname lim d "assert_ne" [a, b] = some (if r = false then .ok .none else .err (.builtin (String.ofList
      ("assertion failed: `(left != right)`\n  left: `".toList ++ a.text L.F cname ++ "`\n right: `".toList ++ b.text L.F cname ++ "`".toList))), d) := by
  have h1 : callIo L O chk cname lim d "assert_eq" [a, b] = some (assertEq L cname O a b d) := callIo_of "assert_eq" [a, b] rfl
  have h2 : callIo L O chk cname lim d "assert_ne" [a, b] = some (assertNe L cname O a b d) := callIo_of "assert_ne" [a, b] rfl
  have h3 : Val.eqv L.F (fun _ _ => none) a b = some r := by
    simp only [Val.binary, Val.equal, hF] at h
    split at h <;> simp_all
  have h4 : same L O a b d = (r, d) := by rw [same, h3]
  rw [h1, h2, assertEq, assertNe, h4]
  cases r <;> exact ⟨rfl, rfl⟩

/-! ## Cases -/

/-- Somebody who types one line. -/
def typing : Outside := { Check.nobody with line := fun _ => some "  hi \n".toList, clock := fun n => some (n * (86400 * 1000000000)) }

/-- Printing true and x. -/
example : callIo Check.noOps Check.nobody chk cname lim ⟨['>'], 4⟩ "println" [.bool true, .str ['x']] = some (.ok .none, ⟨">true x \n".toList, 4⟩) :=
  (callIo_of "println" _ rfl).trans (by rw [io_rest]; rfl)

/-- Asking for a line. -/
example : typing.flush 0 = true ∧ typing.line 1 = some "  hi \n".toList ∧
    callIo Check.noOps typing chk cname lim ⟨[], 0⟩ "input" [.str "name? ".toList] = some (.ok (.str ['h', 'i']), ⟨"name? ".toList, 2⟩) :=
  ⟨rfl, rfl, (callIo_of "input" [.str "name? ".toList] rfl).trans rfl⟩

/-- No such file. -/
example : callIo Check.noOps Check.nobody chk cname lim ⟨[], 0⟩ "readfile" [.str ['f']] = some (.err (.builtin "could not read file: "), ⟨[], 1⟩) :=
  (callIo_of "readfile" [.str ['f']] rfl).trans rfl

/-- Random integers from 3 to below 5. -/
example : (3 : BitVec 64).toInt < (5 : BitVec 64).toInt ∧
    callIo Check.noOps Check.nobody chk cname lim ⟨[], 0⟩ "randint" [.int 3, .int 5] = some (.ok (.int 3), ⟨[], 1⟩) :=
  ⟨by decide, (callIo_of "randint" [.int 3, .int 5] rfl).trans rfl⟩

/-- A random float between 0 and NaN, with the operations of `f64`. -/
example (R : Ieee.Rest) : callIo (Ieee.ops R) O chk cname lim d "randfloat" [.float 0, .float Ieee.nan] = some (.panic, d) :=
  C63_violated_randfloat _ _ _ _ _ _ _ _ (show Ieee.le Ieee.nan 0 = false by decide) (show Ieee.lt 0 Ieee.nan = false by decide)

/-- The hypothesis of the violation of the date. -/
example : ∀ n, typing.clock n = some (n * (86400 * 1000000000)) := fun _ => rfl

/-- Comparing 1 with 2. -/
example : Val.binary (C := C) ⟨L.F, chk⟩ lim (fun _ _ => none) .eq (.int 1) (.int 2) = .ok (.bool false) := rfl

end Quilt.Props
