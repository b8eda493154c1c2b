import Verif.Lib.Builds
import Verif.Compiler.Builds
import Verif.ReplLoop
import Verif.Listing
import Verif.Facade

/-!
# Machines and sessions in builds with and without checks
-/

namespace Quilt
open Lib

variable {D : Type}

/-- The same names, and builtins that agree unless the first crashes. -/
def Builtin.ListStrict : List (String × Builtin D VClos) → List (String × Builtin D VClos) → Prop
  | [], [] => True
  | (x, f) :: l, (y, g) :: l' => x = y ∧ Builtin.Strict (some f) (some g) ∧ ListStrict l l'
  | _, _ => False

theorem Builtin.listStrict : ∀ {l l' : List (String × BFn D VClos)}, LibStrict l l' →
    ListStrict (l.map fun p => (p.1, .fn p.2)) (l'.map fun p => (p.1, .fn p.2))
  | [], [], _ => trivial
  | (_, _) :: _, (_, _) :: _, h => ⟨h.1, h.2.1, Builtin.listStrict h.2.2⟩
  | [], _ :: _, h => h.elim
  | _ :: _, [], h => h.elim

/-- The machine of a build with checks and that of a build without them. -/
structure Machine.Strict (m m' : Machine D) : Prop where
  host : m'.host = m.host.release m'.host.builtins
  builtins : ∀ i, Builtin.Strict (m.host.builtins i) (m'.host.builtins i)
  externals : m'.externals = m.externals
  vm : m'.vm = m.vm

namespace Machine.Strict
variable {m m' : Machine D}

theorem release (m : Machine D) {B : Nat → Option (Builtin D VClos)} (h : ∀ i, Builtin.Strict (m.host.builtins i) (B i)) :
    Strict m { m with host := m.host.release B } := ⟨rfl, h, rfl, rfl⟩

theorem eq (h : Strict m m') : ∃ B, (∀ i, Builtin.Strict (m.host.builtins i) (B i)) ∧ m' = { m with host := m.host.release B } := by
  rcases m with ⟨H, ex, s⟩
  rcases m' with ⟨H', ex', s'⟩
  obtain ⟨h1, h2, h3, h4⟩ := h
  simp only at h1 h2 h3 h4
  subst h3 h4
  exact ⟨H'.builtins, h2, by rw [← h1]⟩

theorem addBuiltins : ∀ {l l' : List (String × Builtin D VClos)}, Builtin.ListStrict l l' → ∀ {m m' : Machine D}, Strict m m' →
    Strict (m.addBuiltins l) (m'.addBuiltins l')
  | [], [], _, _, _, h => h
  | [], _ :: _, h, _, _, _ => h.elim
  | _ :: _, [], h, _, _, _ => h.elim
  | (x, f) :: l, (_, g) :: l', ⟨rfl, hf, hl⟩, m, m', h => by
    obtain ⟨B, hB, rfl⟩ := h.eq
    simp only [Machine.addBuiltins]
    refine addBuiltins hl ⟨rfl, ?_, rfl, rfl⟩
    intro i
    show Builtin.Strict (upd m.host.builtins _ _ i) (upd B _ _ i)
    by_cases hi : i = (m.host.syms.add x).1
    · simp only [upd, Host.release, hi, if_true]; exact hf
    · simp only [upd, Host.release, hi, if_false]; exact hB i

theorem new {S : Machine.Setup D} {data : D} {script : Script} : Strict (.new S data script) (.new { S with cfg := S.cfg.release } data script) :=
  ⟨rfl, fun _ => trivial, rfl, rfl⟩

theorem run (h : Strict m m') (clock : Nat → Bool) (fuel : Nat) : m.run clock fuel = some .panic ∨ m.run clock fuel = m'.run clock fuel := by
  obtain ⟨B, hB, rfl⟩ := h.eq
  exact VM.run_strict hB clock fuel 0 0 m.vm

theorem updateScript (h : Strict m m') (script : Script) : Strict (m.updateScript script) (m'.updateScript script) := by
  obtain ⟨B, hB, rfl⟩ := h.eq
  exact release (m.updateScript script) hB

theorem withVm (h : Strict m m') (s : VM D) : Strict { m with vm := s } { m' with vm := s } := by
  obtain ⟨B, hB, rfl⟩ := h.eq
  exact release { m with vm := s } hB

end Machine.Strict

/-- The session of a build with checks and that of a build without them. -/
structure Repl.Strict (r r' : Repl D) : Prop where
  vm : r.vm.Strict r'.vm
  compiler : r'.compiler = r.compiler
  cache : r'.cache = r.cache
  c : r'.c = r.c
  builtins : Builtin.ListStrict r.builtins r'.builtins

namespace Repl.Strict
variable {r r' : Repl D}

theorem withVm (h : Strict r r') (s : VM D) : Strict (r.withVm s) (r'.withVm s) := ⟨h.vm.withVm s, h.compiler, h.cache, h.c, h.builtins⟩

theorem load (h : Strict r r') (ast : List Node) :
    (r.load ast).1 = .panic ∨ (r.load ast).1 = (r'.load ast).1 ∧ Strict (r.load ast).2 (r'.load ast).2 := by
  have hc : r'.vm.host.cfg = r.vm.host.cfg.release := by rw [h.vm.host]; rfl
  unfold Repl.load
  rw [hc, h.compiler]
  rcases stmts_strict r.vm.host.cfg ast r.compiler with h1 | h1
  · left
    generalize compileStmts r.vm.host.cfg ast r.compiler = p at h1
    rcases p with ⟨o, s⟩
    simp only at h1; subst h1; rfl
  · right
    rw [← h1]
    generalize compileStmts r.vm.host.cfg ast r.compiler = p
    rcases p with ⟨o, s⟩
    cases o with
    | ok a => exact ⟨rfl, (h.vm.updateScript _).addBuiltins h.builtins, rfl, h.cache, h.c, h.builtins⟩
    | err e sp => exact ⟨rfl, h.vm, rfl, h.cache, h.c, h.builtins⟩
    | panic => exact ⟨rfl, h.vm, rfl, h.cache, h.c, h.builtins⟩

/-- The results of a line in the two builds. -/
def _root_.Quilt.LineStrict : Option (LineR D × Repl D) → Option (LineR D × Repl D) → Prop
  | some (.panic, _), _ => True
  | some (o, r), some (o', r') => o = o' ∧ Strict r r'
  | none, none => True
  | _, _ => False

theorem lineStrict {o : LineR D} (h : Strict r r') : LineStrict (some (o, r)) (some (o, r')) := by
  cases o <;> first | trivial | exact ⟨rfl, h⟩

theorem line (h : Strict r r') (ast : List Node) (clock : Nat → Bool) (fuel : Nat) : LineStrict (r.line ast clock fuel) (r'.line ast clock fuel) := by
  have hl := h.load ast
  unfold Repl.line
  generalize r.load ast = p at hl
  generalize r'.load ast = p' at hl
  rcases p with ⟨o, r1⟩
  rcases p' with ⟨o', r1'⟩
  rcases hl with hl | ⟨hl, h1⟩
  · simp only at hl; subst hl; trivial
  · simp only at hl h1; subst hl
    cases o with
    | err e sp => exact ⟨rfl, h1⟩
    | panic => trivial
    | ok u =>
      simp only
      rcases h1.vm.run clock fuel with h2 | h2
      · rw [h2]; trivial
      · rw [← h2]
        cases r1.vm.run clock fuel with
        | none => trivial
        | some q =>
          cases q with
          | next s => trivial
          | panic => trivial
          | done v s => exact ⟨rfl, h1.withVm s⟩
          | err e sp s => exact ⟨rfl, h1.withVm s⟩

theorem execute (h : Strict r r') (W : Peg.World) (k : Nat) (src : List Char) (clock : Nat → Bool) (fuel : Nat) :
    LineStrict (r.execute W k src clock fuel) (r'.execute W k src clock fuel) := by
  simp only [Repl.execute, Repl.read, h.c, h.cache]
  generalize Peg.parseWithIncludes W k ("@__exec__" ++ String.ofList (showNat r.c)) src ⟨r.cache, []⟩ = p
  rcases p with ⟨o, c⟩
  have h' : Strict { r with cache := c.sources, c := r.c + 1 } { r' with cache := c.sources, c := r.c + 1 } := ⟨h.vm, h.compiler, rfl, rfl, h.builtins⟩
  cases o with
  | ok ast => exact h'.line ast clock fuel
  | err e => exact ⟨rfl, h'⟩
  | oof => trivial

end Repl.Strict

namespace Cli
variable (E : Env) (a : Args)

/-- The same program, built without checks. -/
def Env.release : Env := { E with cfg := E.cfg.release }

theorem machine_strict (script : Script) : (machine E a script).Strict (machine E.release a script) :=
  Machine.Strict.new.addBuiltins (Builtin.listStrict (stdio_strict E.L E.cfg.chk E.O vname))

/-- The rounds of the loop in the two builds. -/
def RoundStrict : Option Round → Option Round → Prop
  | some .crash, _ => True
  | some (.again r e), some (.again r' e') => r.Strict r' ∧ e = e'
  | none, none => True
  | _, _ => False

variable {r r' : Repl Io}

theorem withIo_strict (h : r.Strict r') (d : Io) : (withIo r d).Strict (withIo r' d) := by
  unfold withIo
  rw [h.vm.vm]
  exact h.withVm _

theorem repl_strict : (repl E a).Strict (repl E.release a) := by
  unfold repl
  refine withIo_strict ?_ _
  exact ⟨Machine.Strict.new, rfl, rfl, rfl, Builtin.listStrict (stdio_strict E.L E.cfg.chk E.O vname)⟩

theorem report_strict (h : r.Strict r') (e : Shown) : RoundStrict (some (report r e)) (some (report r' e)) := by
  unfold report
  rw [h.cache, h.vm.vm]
  have hi : io r' = io r := by simp only [io, h.vm.vm]
  rw [hi]
  split
  · exact ⟨withIo_strict h _, rfl⟩
  · trivial

theorem respond_strict : ∀ {p p' : Option (LineR Io × Repl Io)}, LineStrict p p' → RoundStrict (p.map (respond E)) (p'.map (respond E.release))
  | none, none, _ => trivial
  | none, some _, h => h.elim
  | some (.panic, _), _, _ => trivial
  | some (.value _, _), none, h => h.elim
  | some (.readErr _, _), none, h => h.elim
  | some (.compileErr _ _, _), none, h => h.elim
  | some (.runErr _ _, _), none, h => h.elim
  | some (.value v, r), some (_, r'), ⟨h1, h⟩ => by
    subst h1
    have hi : io r' = io r := by simp only [io, h.vm.vm]
    simp only [Option.map_some, respond, RoundStrict, hi, and_true]
    split
    · exact h
    · exact withIo_strict h _
  | some (.readErr e, r), some (_, r'), ⟨h1, h⟩ => by subst h1; exact report_strict h _
  | some (.compileErr e sp, r), some (_, r'), ⟨h1, h⟩ => by subst h1; exact report_strict h _
  | some (.runErr e sp, r), some (_, r'), ⟨h1, h⟩ => by subst h1; exact report_strict h _

theorem round_strict (clock : Nat → Nat → Bool) (k fuel : Nat) (h : r.Strict r') : RoundStrict (round E clock k fuel r) (round E.release clock k fuel r') := by
  have hi : io r' = io r := by simp only [io, h.vm.vm]
  simp only [round, hi, Env.release]
  split
  · split
    · trivial
    · rename_i s _
      have h2 := withIo_strict h ((io r).print ">>> ".toList).tick.tick
      split
      · exact ⟨h2, rfl⟩
      · rw [h2.c]
        exact respond_strict E (h2.execute ..)
  · trivial

theorem rounds_strict (clock : Nat → Nat → Bool) (k fuel : Nat) : ∀ (n : Nat) {r r' : Repl Io}, r.Strict r' →
    (∃ es, rounds E clock k fuel n r = some (none, es)) ∨ (rounds E clock k fuel n r = none ∧ rounds E.release clock k fuel n r' = none) ∨
    ∃ q q' es, rounds E clock k fuel n r = some (some q, es) ∧ rounds E.release clock k fuel n r' = some (some q', es) ∧ q.Strict q'
  | 0, r, r', h => .inr (.inr ⟨r, r', [], rfl, rfl, h⟩)
  | n + 1, r, r', h => by
    have h1 := round_strict E clock k fuel h
    simp only [rounds]
    generalize round E clock k fuel r = p at h1
    generalize round E.release clock k fuel r' = p' at h1
    match p, p', h1 with
    | none, none, _ => exact .inr (.inl ⟨rfl, rfl⟩)
    | some .crash, _, _ => exact .inl ⟨[], rfl⟩
    | some (.again q e), some (.again q' _), ⟨hq, rfl⟩ =>
      rcases rounds_strict clock k fuel n hq with ⟨es, h2⟩ | ⟨h2, h3⟩ | ⟨s, s', es, h2, h3, h4⟩
      · exact .inl ⟨_, by simp only [Option.bind_some, h2]; rfl⟩
      · exact .inr (.inl ⟨by simp only [Option.bind_some, h2]; rfl, by simp only [Option.bind_some, h3]; rfl⟩)
      · exact .inr (.inr ⟨s, s', _, by simp only [Option.bind_some, h2]; rfl, by simp only [Option.bind_some, h3]; rfl, h4⟩)

end Cli
end Quilt
