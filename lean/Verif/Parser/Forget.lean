import Verif.Parser.Traced

/-!
# Forgetting the failures gives the grammar
-/

namespace Quilt.Peg

variable {α β : Type}

theorem P.ext {x y : P α} (h : ∀ i, x i = y i) : x = y := funext h

theorem P.bind_assoc {γ : Type} (x : P α) (f : α → P β) (g : β → P γ) : (x >>= f) >>= g = x >>= fun a => f a >>= g := by
  funext i
  show P.bind (P.bind x f) g i = P.bind x _ i
  simp only [P.bind]
  cases x i <;> rfl

theorem P.pure_bind (a : α) (f : α → P β) : (Pure.pure a : P α) >>= f = f a := rfl

theorem orElse_fail (x : P α) : (x </> fail) = x := by
  funext i
  simp only [orElse, fail]
  cases x i <;> rfl

namespace Tr

/-- Forget the failures. -/
def fg (x : T α) : P α := fun i => (x i).1

theorem fg_mk (f : Inp → R α) (g : Inp → List Mark) : fg (fun i => (f i, g i) : T α) = f := rfl
theorem fg_pure (a : α) : fg (pure a : T α) = pure a := rfl
theorem fg_bind (x : T α) (f : α → T β) : fg (x >>= f) = fg x >>= fun a => fg (f a) := by
  funext i
  show (T.bind x f i).1 = P.bind (fg x) _ i
  simp only [T.bind, P.bind, fg]
  rcases x i with ⟨r, m⟩
  cases r <;> rfl
theorem fg_fail : fg (fail : T α) = Peg.fail := rfl
theorem fg_expected (s : String) : fg (expected s : T α) = Peg.fail := rfl
theorem fg_quiet (x : T α) : fg (quiet x) = fg x := rfl
theorem fg_orElse (x y : T α) : fg (x <//> y) = (fg x </> fg y) := by
  funext i
  simp only [orElse, Peg.orElse, fg]
  rcases x i with ⟨r, m⟩
  cases r <;> rfl
theorem fg_position : fg position = Peg.position := rfl
theorem fg_cls (f : Char → Bool) (s : String) : fg (cls f s) = Peg.cls f := rfl
theorem fg_str (s : String) : fg (str s) = Peg.str s := rfl
theorem fg_method (s : String) : fg (method s) = Peg.str s := rfl
theorem fg_notP (x : T α) : fg (notP x) = Peg.notP (fg x) := by
  funext i
  simp only [notP, Peg.notP, fg]
  cases (x i).1 <;> rfl
theorem fg_opt (x : T α) : fg (opt x) = Peg.opt (fg x) := by
  funext i
  simp only [opt, Peg.opt, fg]
  rcases x i with ⟨r, m⟩
  cases r <;> rfl
theorem fg_manyN (x : T α) : ∀ n, fg (manyN x n) = Peg.manyN (fg x) n
  | 0 => rfl
  | n + 1 => by
    funext i
    have ih := fg_manyN x n
    simp only [fg, manyN, Peg.manyN]
    rcases x i with ⟨r, m⟩
    cases r with
    | ok a j =>
      have h : ∀ a, fg (do let as ← manyN x n; pure (a :: as) : T (List α)) = (do let as ← Peg.manyN (fg x) n; pure (a :: as) : P (List α)) := by
        intro a; rw [fg_bind, ih]; rfl
      exact congrFun (h a) j
    | _ => rfl
theorem fg_many (x : T α) : fg (many x) = Peg.many (fg x) := by
  funext i
  exact congrFun (fg_manyN x _) i
theorem fg_many1 (x : T α) : fg (many1 x) = Peg.many1 (fg x) := by simp only [many1, Peg.many1, fg_bind, fg_many, fg_pure]
theorem fg_sepBy1 (x : T α) (y : T β) : fg (sepBy1 x y) = Peg.sepBy1 (fg x) (fg y) := by simp only [sepBy1, Peg.sepBy1, fg_bind, fg_many, fg_pure]
theorem fg_sepBy (x : T α) (y : T β) : fg (sepBy x y) = Peg.sepBy (fg x) (fg y) := by simp only [sepBy, Peg.sepBy, fg_orElse, fg_sepBy1, fg_pure]
theorem fg_eof : fg eof = Peg.eof := rfl
theorem fg_ite (c : Prop) [Decidable c] (x y : T α) : fg (if c then x else y) = if c then fg x else fg y := by split <;> rfl

theorem fg_fuel {x : Nat → T α} {y : Nat → P α} (h : ∀ n, fg (x n) = y n) : fg (fun i => x (i.rest.length + 1) i) = fun i => y (i.rest.length + 1) i := by
  funext i
  rw [← h]
  rfl

macro "forget" "[" xs:Lean.Parser.Tactic.simpLemma,* "]" : tactic => `(tactic| simp only [fg_pure, fg_bind, fg_fail, fg_expected, fg_quiet, fg_orElse, fg_position, fg_cls, fg_str,
  fg_method, fg_notP, fg_opt, fg_many, fg_many1, fg_sepBy1, fg_sepBy, fg_eof, fg_ite, orElse_fail, P.bind_assoc, $xs,*])

theorem fg_spanned (E : Env) (x : T α) : fg (spanned E x) = Peg.spanned E (fg x) := by forget [spanned, Peg.spanned]
theorem fg_term : fg term = Peg.term := by forget [term, Peg.term]
theorem fg_comment : fg comment = Peg.comment := by forget [comment, Peg.comment, fg_term]
theorem fg_terminator : fg terminator = Peg.terminator := by forget [terminator, Peg.terminator, fg_term, fg_comment]
theorem fg_simpleWhitespace : fg simpleWhitespace = Peg.simpleWhitespace := by forget [simpleWhitespace, Peg.simpleWhitespace]
theorem fg_whitespace : fg whitespace = Peg.whitespace := by forget [whitespace, Peg.whitespace, fg_term, fg_simpleWhitespace]
theorem fg_skip : fg skip = Peg.skip := by forget [skip, Peg.skip, fg_whitespace, fg_terminator, fg_comment]
theorem fg_skip1 : fg skip1 = Peg.skip1 := by forget [skip1, Peg.skip1, fg_whitespace, fg_comment]
theorem fg_ws : fg ws = Peg.ws := by forget [ws, Peg.ws, fg_simpleWhitespace]
theorem fg_commaSep (x : T α) : fg (commaSep x) = Peg.commaSep (fg x) := by forget [commaSep, Peg.commaSep, fg_skip]
theorem fg_commaSep1 (x : T α) : fg (commaSep1 x) = Peg.commaSep1 (fg x) := by forget [commaSep1, Peg.commaSep1, fg_skip]
theorem fg_kw (s : String) : fg (kw s) = Peg.kw s := by forget [kw, Peg.kw]
theorem fg_ident : fg ident = Peg.ident := by forget [ident, Peg.ident]
theorem fg_int (w : Nat) : fg (int w) = Peg.int w := by forget [int, Peg.int]
theorem fg_float (E : Env) : fg (float E) = Peg.float E := by forget [float, Peg.float]
theorem fg_hex : fg hex = Peg.hex := by
  forget [hex, Peg.hex]
  congr; funext _; congr; funext s
  cases hexToRgba s <;> rfl
theorem fg_quotedChar : fg quotedChar = Peg.quotedChar := by forget [quotedChar, Peg.quotedChar]
theorem fg_string : fg string = Peg.string := by forget [string, Peg.string, fg_quotedChar]
theorem fg_rangeLit : fg rangeLit = Peg.rangeLit := by forget [rangeLit, Peg.rangeLit, fg_int, fg_skip]
theorem fg_literalF (E : Env) (x : T Literal) : fg (literalF E x) = Peg.literalF E (fg x) := by
  forget [literalF, Peg.literalF, fg_kw, fg_hex, fg_float, fg_rangeLit, fg_int, fg_string, fg_skip, fg_commaSep]
theorem fg_literalN (E : Env) : ∀ n, fg (literalN E n) = Peg.literalN E n
  | 0 => rfl
  | n + 1 => by simp only [literalN, Peg.literalN, fg_literalF, fg_literalN E n]
theorem fg_literal (E : Env) : fg (literal E) = Peg.literal E := by
  unfold literal Peg.literal
  exact fg_fuel (fg_literalN E)
theorem fg_opP : fg opP = Peg.opP := by forget [opP, Peg.opP]
theorem fg_block (E : Env) (x : T Node) (b : Bool) : fg (block E x b) = Peg.block E (fg x) b := by forget [block, Peg.block, fg_skip]
theorem fg_ifCondition (E : Env) (x : T Node) : ∀ k, fg (ifCondition E x k) = Peg.ifCondition E (fg x) k
  | 0 => rfl
  | k + 1 => by
    have ih := fg_ifCondition E x k
    forget [ifCondition, Peg.ifCondition, fg_skip, fg_kw, fg_block, ih]
theorem fg_case (E : Env) (x : T Node) : fg (case_ E x) = Peg.case_ E (fg x) := by forget [case_, Peg.case_, fg_skip, fg_kw, fg_block]
theorem fg_defaultCase (E : Env) (x : T Node) : fg (defaultCase E x) = Peg.defaultCase E (fg x) := by forget [defaultCase, Peg.defaultCase, fg_skip, fg_kw, fg_block]
theorem fg_switchCase (E : Env) (x : T Node) : fg (switchCase E x) = Peg.switchCase E (fg x) := by
  forget [switchCase, Peg.switchCase, fg_skip, fg_kw, fg_case, fg_defaultCase]

theorem fg_firstOf : ∀ xs, fg (firstOf xs) = Peg.firstOf (xs.map fg)
  | [] => rfl
  | x :: xs => by simp only [firstOf, Peg.firstOf, List.map_cons, fg_orElse, fg_firstOf xs]

theorem fg_prefixes (E : Env) (d : Nat) (rec : Nat → T Node) : (prefixes E d rec).map fg = Peg.prefixes E d (fun n => fg (rec n)) := by
  simp only [prefixes, Peg.prefixes, List.map_cons, List.map_nil]
  forget [fg_kw, fg_skip, fg_skip1, fg_spanned, fg_ident, fg_opP, fg_commaSep1, fg_commaSep, fg_block, fg_ifCondition, fg_switchCase, fg_string, fg_rangeLit, fg_literal, fg_ws]
  rfl

theorem fg_infix (rec : Nat → T Node) (min : Nat) (l : Node) (op) : fg (infix_ rec min l op) = Peg.infix_ (fun n => fg (rec n)) min l op := by
  forget [infix_, Peg.infix_, fg_skip]

theorem fg_postfixes (rec : Nat → T Node) (min : Nat) (l : Node) : (postfixes rec min l).map fg = Peg.postfixes (fun n => fg (rec n)) min l := by
  simp only [postfixes, Peg.postfixes, List.append_eq, List.map_append, List.map_cons, List.map_nil, List.map_map]
  congr 1
  · refine List.map_congr_left fun op _ => ?_
    exact fg_infix rec min l op
  · forget [fg_ws, fg_skip, fg_commaSep]

theorem fg_climb (E : Env) (rec : Nat → T Node) (min s : Nat) : ∀ n l, fg (climb E rec min s n l) = Peg.climb E (fun n => fg (rec n)) min s n l
  | 0, _ => rfl
  | n + 1, l => by
    funext i
    have h : fg (do let f ← firstOf (postfixes rec min l); let e ← position; pure (f ⟨s, e, E.src⟩) : T Node) =
        (do let f ← Peg.firstOf (Peg.postfixes (fun n => fg (rec n)) min l); let e ← Peg.position; pure (f ⟨s, e, E.src⟩) : P Node) := by
      forget [fg_firstOf, fg_postfixes]
    simp only [climb, Peg.climb, ← h, fg]
    cases hx : (do let f ← firstOf (postfixes rec min l); let e ← position; pure (f ⟨s, e, E.src⟩) : T Node) i with
    | mk r m =>
    simp only
    cases r with
    | ok l' j => exact congrFun (fg_climb E rec min s n l') j
    | _ => rfl

theorem fg_nodeF (E : Env) (d : Nat) (rec : Nat → T Node) (min : Nat) : fg (nodeF E d rec min) = Peg.nodeF E d (fun n => fg (rec n)) min := by
  have h : ∀ s l, fg (climbAll E rec min s l) = Peg.climbAll E (fun n => fg (rec n)) min s l := fun s l => funext fun i => congrFun (fg_climb E rec min s _ l) i
  forget [nodeF, Peg.nodeF, fg_firstOf, fg_prefixes, h]

theorem fg_nodeN (E : Env) : ∀ k m, fg (nodeN E k m) = Peg.nodeN E k m
  | 0, _ => rfl
  | k + 1, m => by
    simp only [nodeN, Peg.nodeN, fg_nodeF]
    congr
    funext n
    exact fg_nodeN E k n

theorem fg_node (E : Env) : fg (node E) = Peg.node E := by
  unfold node Peg.node
  exact fg_fuel fun n => fg_nodeN E n 0

theorem fg_code (E : Env) : fg (code E) = Peg.code E := by forget [code, Peg.code, fg_skip, fg_node]

theorem fg_all (E : Env) (text : List Char) : (all E ⟨0, text⟩).1 = parseCode E text := by
  have : fg (all E) = (do let a ← Peg.code E; Peg.eof; pure a : P (List Node)) := by forget [all, fg_code]
  exact congrFun this _

theorem fg_allLiteral (E : Env) (text : List Char) : (allLiteral E ⟨0, text⟩).1 = parseLiteral E text := by
  have : fg (allLiteral E) = (do let a ← Peg.literal E; Peg.eof; pure a : P Literal) := by forget [allLiteral, fg_literal]
  exact congrFun this _

end Tr
end Quilt.Peg
