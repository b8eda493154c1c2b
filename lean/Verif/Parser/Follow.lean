import Verif.Parser.NodeLit
import Verif.Parser.Strip

/-!
# What may follow an expression
-/

namespace Quilt.Cs

open Peg

/-! ## Where no expression begins -/

/-- After a gap, no expression begins. -/
def BadStart (s : List Char) : Prop := ∃ (G : Gap) (r : List Char), s = G.text ++ r ∧ G.ok = true ∧ NoSkip r ∧ NotHead exprStart r

theorem BadStart.head {s : List Char} (h : BadStart s) : NotHead exprStart s := by
  obtain ⟨G, r, rfl, _, _, hr⟩ := h
  exact Gap.notHead (gap_not (by decide)) hr

theorem badStart_cons {c : Char} {t : List Char} (h1 : exprStart c = false) (h2 : isSkip c = false) : BadStart (c :: t) := ⟨[], c :: t, rfl, rfl, noSkip_cons h2, h1⟩

theorem NotHead.ne {f : Char → Bool} {s : List Char} (h : NotHead f s) {c : Char} (hc : f c = true) : NotHead (· == c) s := h.imp fun d hd => by rw [eq_of_beq hd]; exact hc

theorem fails_kw_head {w : String} {c : Char} {cs s : List Char} (hw : w.toList = c :: cs) (h : NotHead (· == c) s) : Fails (kw w) s := by
  unfold kw
  exact Fails.bind (Fails.str hw h)

theorem fails_ident_head {s : List Char} (h : NotHead isIdStart s) : Fails ident s := by
  unfold ident
  exact Fails.bind (Fails.cls h)

theorem literal_fails {E : Env} {s : List Char} (h : Fails (literalN E (s.length + 1)) s) : Fails (literal E) s := fun p => h p

theorem literal_gives {E : Env} {s : List Char} {Q : Literal → List Char → Prop} (h : Gives (literalN E (s.length + 1)) s Q) : Gives (literal E) s Q := fun p => h p

theorem isAlpha_expr (c : Char) (h : isAlpha c = true) : exprStart c = true := by simp [exprStart, isIdStart, h]
theorem isIdStart_expr (c : Char) (h : isIdStart c = true) : exprStart c = true := by simp [exprStart, h]
theorem isNum_expr (c : Char) (h : isNum c = true) : exprStart c = true := by
  simp only [isNum, Bool.or_eq_true, beq_iff_eq] at h
  rcases h with h | rfl
  · simp [exprStart, h]
  · decide
theorem isLitHead_expr (c : Char) (h : isLitHead c = true) : exprStart c = true := litHead_start (.inl h)

/-- Where no expression begins, the parser fails. -/
theorem fails_prefixes {E : Env} {d : Nat} {rec : Nat → P Node} {s : List Char} (h : BadStart s) : Fails (firstOf (prefixes E (d + 1) rec)) s := by
  have h0 := h.head
  have ch : ∀ {w : String} {c : Char} {cs : List Char}, w.toList = c :: cs → exprStart c = true → Fails (Peg.str w) s := fun hw hc => Fails.str hw (NotHead.ne h0 hc)
  have kh : ∀ {w : String} {c : Char} {cs : List Char}, w.toList = c :: cs → exprStart c = true → Fails (kw w) s := fun hw hc => fails_kw_head hw (NotHead.ne h0 hc)
  have hid : Fails ident s := fails_ident_head (h0.imp isIdStart_expr)
  have hlit : Fails (literal E) s := literal_fails (fails_literal_head (h0.imp isAlpha_expr) (h0.imp isLitHead_expr))
  have hsk : ∀ {w : String} {c : Char} {cs : List Char} {α : Type} {f : P α}, w.toList = c :: cs → exprStart c = true → Fails (do skip; kw w; f) s := by
    intro w c cs α f hw hc
    obtain ⟨G, r, rfl, h1, h2, h3⟩ := h
    exact Fails.take (takes_skip h1 h2) (Fails.bind (fails_kw_head hw (NotHead.ne h3 hc)))
  unfold prefixes
  refine Fails.or (Fails.bind (kh (c := 'r') (cs := ['e', 't', 'u', 'r', 'n']) (by decide) (by decide))) ?_
  refine Fails.or (Fails.bind (kh (c := 'e') (cs := ['x', 't', 'e', 'r', 'n', 'a', 'l']) (by decide) (by decide))) ?_
  refine Fails.or (Fails.bind (kh (c := 'l') (cs := ['e', 't']) (by decide) (by decide))) ?_
  refine Fails.or (Fails.bind (kh (c := 'l') (cs := ['e', 't']) (by decide) (by decide))) ?_
  refine Fails.or (Fails.bind (Fails.spanned hid)) ?_
  refine Fails.or (Fails.bind (kh (c := 'f') (cs := ['n']) (by decide) (by decide))) ?_
  refine Fails.or (hsk (c := 'i') (cs := ['f']) (by decide) (by decide)) ?_
  refine Fails.or (hsk (c := 's') (cs := ['w', 'i', 't', 'c', 'h']) (by decide) (by decide)) ?_
  refine Fails.or (Fails.bind (kh (c := 'w') (cs := ['h', 'i', 'l', 'e']) (by decide) (by decide))) ?_
  refine Fails.or (Fails.bind (kh (c := 'f') (cs := ['o', 'r']) (by decide) (by decide))) ?_
  refine Fails.or (Fails.bind (kh (c := 'f') (cs := ['o', 'r']) (by decide) (by decide))) ?_
  refine Fails.or (Fails.bind (kh (c := 'w') (cs := ['i', 't', 'h']) (by decide) (by decide))) ?_
  refine Fails.or (Fails.bind (kh (c := 'i') (cs := ['n', 'c', 'l', 'u', 'd', 'e']) (by decide) (by decide))) ?_
  refine Fails.or (Fails.bind (Fails.range (h0.imp isNum_expr))) ?_
  refine Fails.or (Fails.bind (ch (c := '!') (cs := []) (by decide) (by decide))) ?_
  refine Fails.or (Fails.bind (ch (c := '-') (cs := []) (by decide) (by decide))) ?_
  refine Fails.or (Fails.bind (ch (c := '~') (cs := []) (by decide) (by decide))) ?_
  refine Fails.or (Fails.bind hlit) ?_
  refine Fails.or (Fails.bind (ch (c := '[') (cs := []) (by decide) (by decide))) ?_
  refine Fails.or (Fails.bind (ch (c := '(') (cs := []) (by decide) (by decide))) ?_
  refine Fails.or (Fails.bind (ch (c := '(') (cs := []) (by decide) (by decide))) ?_
  refine Fails.or (Fails.bind (ch (c := '@') (cs := []) (by decide) (by decide))) ?_
  refine Fails.or (Fails.bind hid) ?_
  refine Fails.or (Fails.bind (ch (c := '(') (cs := []) (by decide) (by decide))) ?_
  refine Fails.or (Fails.bind (Fails.after Gives.position fun _ _ e => e ▸ Fails.bind (ch (c := '{') (cs := []) (by decide) (by decide)))) ?_
  exact fun _ => rfl

theorem fails_node {E : Env} {k min : Nat} {s : List Char} (h : BadStart s) : Fails (nodeN E (k + 1) min) s :=
  Fails.after Gives.position fun _ _ e => e ▸ Fails.bind (fails_prefixes h)

/-- The parser fails where no expression begins, on texts shorter than `n`. -/
def RecBad (n : Nat) (rec : Nat → P Node) : Prop := ∀ p s, s.length < n → BadStart s → Fails (rec p) s

theorem recBad_node (E : Env) (k : Nat) : RecBad k (nodeN E k) := fun p s h hb => by
  cases k with
  | zero => omega
  | succ k => exact fails_node hb

theorem RecBad.mono {n m : Nat} {rec : Nat → P Node} (h : RecBad m rec) (hn : n ≤ m) : RecBad n rec := fun p s hs hb => h p s (by omega) hb

/-! ## The end of an expression -/

/-- No operator of level `min` or more continues an expression here. -/
def Stop (min : Nat) (s : List Char) : Prop := ∀ rec : Nat → P Node, RecBad s.length rec → ∀ l, Fails (firstOf (postfixes rec min l)) s

/-- Texts of operators. -/
def Infix.str : Infix → String
  | .range => ":" | .and => "&&" | .or => "||" | .eq => "==" | .neq => "!=" | .gte => ">=" | .lte => "<="
  | .gt => ">" | .lt => "<" | .bitAnd => "&" | .bitOr => "|" | .bitXor => "^" | .shl => "<<" | .shr => ">>" | .tilde => "~"
  | .join => ".." | .add => "+" | .sub => "-" | .mul => "*" | .div => "/" | .mod => "%" | .pow => "**"

theorem Infix.str_text (op : Infix) : op.str.toList = op.text := by cases op <;> decide

def Infix.build : Infix → Span → Node → Node → Node
  | .range => .range
  | .and => (.bin · .and) | .or => (.bin · .or) | .eq => (.bin · .eq) | .neq => (.bin · .neq) | .gte => (.bin · .gte) | .lte => (.bin · .lte)
  | .gt => (.bin · .gt) | .lt => (.bin · .lt) | .bitAnd => (.bin · .bitAnd) | .bitOr => (.bin · .bitOr) | .bitXor => (.bin · .bitXor)
  | .shl => (.bin · .shl) | .shr => (.bin · .shr) | .tilde => (.bin · .bitNot) | .join => (.bin · .join)
  | .add => (.bin · .add) | .sub => (.bin · .sub) | .mul => (.bin · .mul) | .div => (.bin · .div) | .mod => (.bin · .mod) | .pow => (.bin · .pow)

theorem Infix.strip_build (op : Infix) (sp : Span) (a b : Node) : (op.build sp a b).strip = op.ast a.strip b.strip := by cases op <;> rfl

/-- The table of the parser lists the operators. -/
theorem infixOps_eq : infixOps = Infix.all.map fun op => (op.lvl, op.str, op.build) := rfl

theorem Infix.mem_all (op : Infix) : op ∈ Infix.all := by cases op <;> decide

/-- One operator of the table. -/
def opStep (rec : Nat → P Node) (l : Node) (op : Infix) : P (Span → Node) := do
  skip
  Peg.str op.str
  skip
  let r ← rec (op.lvl + 1)
  pure fun sp => op.build sp l r

theorem infix_eq (rec : Nat → P Node) (min : Nat) (l : Node) (op : Infix) :
    infix_ rec min l (op.lvl, op.str, op.build) = if op.lvl ≥ min then opStep rec l op else fail := rfl

theorem Fails.ite {α : Type} {c : Prop} [Decidable c] {x : P α} {s : List Char} (h : c → Fails x s) : Fails (if c then x else fail) s := by
  by_cases hc : c
  · rw [if_pos hc]; exact h hc
  · rw [if_neg hc]; exact fun _ => rfl

theorem stop_of {min : Nat} {s : List Char} (hi : ∀ rec, RecBad s.length rec → ∀ l, ∀ op : Infix, min ≤ op.lvl → Fails (opStep rec l op) s)
    (hc : min ≤ 17 → ∀ f : P (Span → Node), Fails (do ws; Peg.str "("; f) s) (hx : min ≤ 17 → ∀ f : P (Span → Node), Fails (do skip; Peg.str "["; f) s) : Stop min s := by
  intro rec hr l
  refine Fails.first ?_
  intro x hx'
  unfold postfixes at hx'
  rcases List.mem_append.1 hx' with h | h
  · rw [infixOps_eq, List.map_map] at h
    obtain ⟨op, _, rfl⟩ := List.mem_map.1 h
    show Fails (infix_ rec min l (op.lvl, op.str, op.build)) s
    rw [infix_eq]
    exact Fails.ite fun h => hi rec hr l op h
  · rcases List.mem_cons.1 h with rfl | h
    · exact Fails.ite fun h => hc h _
    · rw [List.mem_singleton.1 h]
      exact Fails.ite fun h => hx h _

theorem stop_high {min : Nat} {s : List Char} (h : 18 ≤ min) : Stop min s :=
  stop_of (fun _ _ _ op h' => absurd h' (by cases op <;> simp [Infix.lvl] <;> omega)) (fun h => by omega) (fun h => by omega)

theorem Stop.mono {m n : Nat} {s : List Char} (h : Stop m s) (hn : m ≤ n) : Stop n s := by
  have key : ∀ (x : P (Span → Node)) (xs : List (P (Span → Node))), Fails (firstOf (x :: xs)) s → Fails x s ∧ Fails (firstOf xs) s := by
    intro x xs h
    have h1 : Fails x s := by
      intro p
      have := h p
      unfold firstOf orElse at this
      cases hx : x ⟨p, s⟩ with
      | ok a i => rw [hx] at this; cases this
      | fail => rfl
      | oof => rw [hx] at this; cases this
    refine ⟨h1, fun p => ?_⟩
    have := h p
    unfold firstOf orElse at this
    rw [h1 p] at this
    exact this
  have key2 : ∀ xs : List (P (Span → Node)), Fails (firstOf xs) s → ∀ x ∈ xs, Fails x s := by
    intro xs
    induction xs with
    | nil => intro _ x hx; cases hx
    | cons y ys ih =>
      intro h x hx
      obtain ⟨h1, h2⟩ := key y ys h
      rcases List.mem_cons.1 hx with rfl | hx
      · exact h1
      · exact ih h2 x hx
  intro rec hr l
  have hm := key2 _ (h rec hr l)
  refine Fails.first ?_
  intro x hx
  unfold postfixes at hx hm
  rcases List.mem_append.1 hx with hx | hx
  · obtain ⟨op, hop, rfl⟩ := List.mem_map.1 hx
    have := hm _ (List.mem_append.2 (.inl (List.mem_map.2 ⟨op, hop, rfl⟩)))
    unfold infix_ at this ⊢
    by_cases h1 : op.1 ≥ n
    · rw [if_pos h1]; rw [if_pos (show op.1 ≥ m by omega)] at this; exact this
    · rw [if_neg h1]; exact fun _ => rfl
  · rcases List.mem_cons.1 hx with rfl | hx
    · have := hm _ (List.mem_append.2 (.inr (List.mem_cons_self)))
      refine Fails.ite fun h1 => ?_
      rw [if_pos (show 17 ≥ m by omega)] at this
      exact this
    · rw [List.mem_singleton.1 hx]
      have := hm _ (List.mem_append.2 (.inr (List.mem_cons_of_mem _ (List.mem_singleton.2 rfl))))
      refine Fails.ite fun h1 => ?_
      rw [if_pos (show 17 ≥ m by omega)] at this
      exact this

/-- A name before this text is not assigned to. -/
def AssignSafe (s : List Char) : Prop := ∀ rec : Nat → P Node, RecBad s.length rec → ∀ f : Option Op → Node → Span → Node,
  Fails (do skip; let op ← opt opP; Peg.str "="; skip; let e ← rec 3; pure (f op e) : P (Span → Node)) s

/-! ### Operators of assignments -/

def isOpHead (c : Char) : Bool := c == '+' || c == '-' || c == '*' || c == '/' || c == '%' || c == '&' || c == '|' || c == '^' || c == '<' || c == '>' || c == '.'

theorem fails_opP {s : List Char} (h : NotHead isOpHead s) : Fails opP s := by
  have f : ∀ {w : String} {c : Char} {cs : List Char} {o : Op}, w.toList = c :: cs → isOpHead c = true → Fails (do Peg.str w; pure o : P Op) s :=
    fun hw hc => Fails.bind (Fails.str hw (NotHead.ne h hc))
  unfold opP
  refine Fails.or (f (c := '+') (cs := []) (by decide) (by decide)) <| Fails.or (f (c := '-') (cs := []) (by decide) (by decide)) <|
    Fails.or (f (c := '*') (cs := []) (by decide) (by decide)) <| Fails.or (f (c := '/') (cs := []) (by decide) (by decide)) <|
    Fails.or (f (c := '%') (cs := []) (by decide) (by decide)) <| Fails.or (f (c := '*') (cs := ['*']) (by decide) (by decide)) <|
    Fails.or (f (c := '&') (cs := ['&']) (by decide) (by decide)) <| Fails.or (f (c := '|') (cs := ['|']) (by decide) (by decide)) <|
    Fails.or (f (c := '&') (cs := []) (by decide) (by decide)) <| Fails.or (f (c := '|') (cs := []) (by decide) (by decide)) <|
    Fails.or (f (c := '^') (cs := []) (by decide) (by decide)) <| Fails.or (f (c := '<') (cs := ['<']) (by decide) (by decide)) <|
    Fails.or (f (c := '>') (cs := ['>']) (by decide) (by decide)) (f (c := '.') (cs := ['.']) (by decide) (by decide))

/-- A single `<` or `>` is not such an operator. -/
theorem fails_opP_angle {c : Char} {u : List Char} (hc : c = '<' ∨ c = '>') (h : NotHead (· == c) u) : Fails opP (c :: u) := by
  have f : ∀ {w : String} {d : Char} {cs : List Char} {o : Op}, w.toList = d :: cs → d ≠ '<' → d ≠ '>' → Fails (do Peg.str w; pure o : P Op) (c :: u) :=
    fun hw h1 h2 => Fails.bind (Fails.str_cons hw (by
      rcases hc with rfl | rfl
      · exact h1.symm
      · exact h2.symm))
  have g : ∀ {w : String} {d : Char} {o : Op}, w.toList = [d, d] → d = '<' ∨ d = '>' → Fails (do Peg.str w; pure o : P Op) (c :: u) := by
    intro w d o hw hd
    refine Fails.bind (fails_str2 hw ?_)
    rintro v hv
    injection hv with h1 h2
    subst h1; subst h2
    simp [NotHead] at h
  unfold opP
  refine Fails.or (f (d := '+') (cs := []) (by decide) (by decide) (by decide)) <| Fails.or (f (d := '-') (cs := []) (by decide) (by decide) (by decide)) <|
    Fails.or (f (d := '*') (cs := []) (by decide) (by decide) (by decide)) <| Fails.or (f (d := '/') (cs := []) (by decide) (by decide) (by decide)) <|
    Fails.or (f (d := '%') (cs := []) (by decide) (by decide) (by decide)) <| Fails.or (f (d := '*') (cs := ['*']) (by decide) (by decide) (by decide)) <|
    Fails.or (f (d := '&') (cs := ['&']) (by decide) (by decide) (by decide)) <| Fails.or (f (d := '|') (cs := ['|']) (by decide) (by decide) (by decide)) <|
    Fails.or (f (d := '&') (cs := []) (by decide) (by decide) (by decide)) <| Fails.or (f (d := '|') (cs := []) (by decide) (by decide) (by decide)) <|
    Fails.or (f (d := '^') (cs := []) (by decide) (by decide) (by decide)) <| Fails.or (g (d := '<') (by decide) (.inl rfl)) <|
    Fails.or (g (d := '>') (by decide) (.inr rfl)) (f (d := '.') (cs := ['.']) (by decide) (by decide) (by decide))

/-- Operators of assignments are read, if they are not followed by `&` or `|`. -/
theorem takes_opP {a : AOp} {u : List Char} (h : NotHead (fun c => c == '&' || c == '|') u) : Takes opP (a.text ++ u) a.op u := by
  have f : ∀ {w : String} {c d : Char} {cs v : List Char} {o : Op}, w.toList = c :: cs → d ≠ c → Fails (do Peg.str w; pure o : P Op) (d :: v) :=
    fun hw hc => Fails.bind (Fails.str_cons hw hc)
  have t : ∀ {w : String} {cs v : List Char} {o : Op}, w.toList = cs → Takes (do Peg.str w; pure o : P Op) (cs ++ v) o v :=
    fun hw => Takes.bind (Takes.str hw _) (Gives.pure ⟨rfl, rfl⟩)
  have g : ∀ {w : String} {c : Char} {o : Op}, w.toList = [c, c] → (c == '&' || c == '|') = true → Fails (do Peg.str w; pure o : P Op) (c :: u) := by
    intro w c o hw hc
    refine Fails.bind (fails_str2 hw ?_)
    rintro v hv
    injection hv with h1 h2
    subst h2
    have : (c == '&' || c == '|') = false := h
    rw [this] at hc; cases hc
  unfold opP
  cases a with
  | add => exact Gives.left (t (cs := ['+']) (by decide))
  | sub => exact Gives.right (f (c := '+') (cs := []) (by decide) (by decide)) (Gives.left (t (cs := ['-']) (by decide)))
  | mul => exact Gives.right (f (c := '+') (cs := []) (by decide) (by decide)) (Gives.right (f (c := '-') (cs := []) (by decide) (by decide)) (Gives.left (t (cs := ['*']) (by decide))))
  | div => exact Gives.right (f (c := '+') (cs := []) (by decide) (by decide)) (Gives.right (f (c := '-') (cs := []) (by decide) (by decide))
      (Gives.right (f (c := '*') (cs := []) (by decide) (by decide)) (Gives.left (t (cs := ['/']) (by decide)))))
  | mod => exact Gives.right (f (c := '+') (cs := []) (by decide) (by decide)) (Gives.right (f (c := '-') (cs := []) (by decide) (by decide))
      (Gives.right (f (c := '*') (cs := []) (by decide) (by decide)) (Gives.right (f (c := '/') (cs := []) (by decide) (by decide)) (Gives.left (t (cs := ['%']) (by decide))))))
  | and => exact Gives.right (f (c := '+') (cs := []) (by decide) (by decide)) (Gives.right (f (c := '-') (cs := []) (by decide) (by decide))
      (Gives.right (f (c := '*') (cs := []) (by decide) (by decide)) (Gives.right (f (c := '/') (cs := []) (by decide) (by decide)) (Gives.right (f (c := '%') (cs := []) (by decide) (by decide))
      (Gives.right (f (c := '*') (cs := ['*']) (by decide) (by decide)) (Gives.left (t (cs := ['&', '&']) (by decide))))))))
  | or => exact Gives.right (f (c := '+') (cs := []) (by decide) (by decide)) (Gives.right (f (c := '-') (cs := []) (by decide) (by decide))
      (Gives.right (f (c := '*') (cs := []) (by decide) (by decide)) (Gives.right (f (c := '/') (cs := []) (by decide) (by decide)) (Gives.right (f (c := '%') (cs := []) (by decide) (by decide))
      (Gives.right (f (c := '*') (cs := ['*']) (by decide) (by decide)) (Gives.right (f (c := '&') (cs := ['&']) (by decide) (by decide)) (Gives.left (t (cs := ['|', '|']) (by decide)))))))))
  | bitAnd => exact Gives.right (f (c := '+') (cs := []) (by decide) (by decide)) (Gives.right (f (c := '-') (cs := []) (by decide) (by decide))
      (Gives.right (f (c := '*') (cs := []) (by decide) (by decide)) (Gives.right (f (c := '/') (cs := []) (by decide) (by decide)) (Gives.right (f (c := '%') (cs := []) (by decide) (by decide))
      (Gives.right (f (c := '*') (cs := ['*']) (by decide) (by decide)) (Gives.right (g (c := '&') (by decide) (by decide)) (Gives.right (f (c := '|') (cs := ['|']) (by decide) (by decide))
      (Gives.left (t (cs := ['&']) (by decide))))))))))
  | bitOr => exact Gives.right (f (c := '+') (cs := []) (by decide) (by decide)) (Gives.right (f (c := '-') (cs := []) (by decide) (by decide))
      (Gives.right (f (c := '*') (cs := []) (by decide) (by decide)) (Gives.right (f (c := '/') (cs := []) (by decide) (by decide)) (Gives.right (f (c := '%') (cs := []) (by decide) (by decide))
      (Gives.right (f (c := '*') (cs := ['*']) (by decide) (by decide)) (Gives.right (f (c := '&') (cs := ['&']) (by decide) (by decide)) (Gives.right (g (c := '|') (by decide) (by decide))
      (Gives.right (f (c := '&') (cs := []) (by decide) (by decide)) (Gives.left (t (cs := ['|']) (by decide)))))))))))
  | bitXor => exact Gives.right (f (c := '+') (cs := []) (by decide) (by decide)) (Gives.right (f (c := '-') (cs := []) (by decide) (by decide))
      (Gives.right (f (c := '*') (cs := []) (by decide) (by decide)) (Gives.right (f (c := '/') (cs := []) (by decide) (by decide)) (Gives.right (f (c := '%') (cs := []) (by decide) (by decide))
      (Gives.right (f (c := '*') (cs := ['*']) (by decide) (by decide)) (Gives.right (f (c := '&') (cs := ['&']) (by decide) (by decide)) (Gives.right (f (c := '|') (cs := ['|']) (by decide) (by decide))
      (Gives.right (f (c := '&') (cs := []) (by decide) (by decide)) (Gives.right (f (c := '|') (cs := []) (by decide) (by decide)) (Gives.left (t (cs := ['^']) (by decide))))))))))))
  | shl => exact Gives.right (f (c := '+') (cs := []) (by decide) (by decide)) (Gives.right (f (c := '-') (cs := []) (by decide) (by decide))
      (Gives.right (f (c := '*') (cs := []) (by decide) (by decide)) (Gives.right (f (c := '/') (cs := []) (by decide) (by decide)) (Gives.right (f (c := '%') (cs := []) (by decide) (by decide))
      (Gives.right (f (c := '*') (cs := ['*']) (by decide) (by decide)) (Gives.right (f (c := '&') (cs := ['&']) (by decide) (by decide)) (Gives.right (f (c := '|') (cs := ['|']) (by decide) (by decide))
      (Gives.right (f (c := '&') (cs := []) (by decide) (by decide)) (Gives.right (f (c := '|') (cs := []) (by decide) (by decide)) (Gives.right (f (c := '^') (cs := []) (by decide) (by decide))
      (Gives.left (t (cs := ['<', '<']) (by decide)))))))))))))
  | shr => exact Gives.right (f (c := '+') (cs := []) (by decide) (by decide)) (Gives.right (f (c := '-') (cs := []) (by decide) (by decide))
      (Gives.right (f (c := '*') (cs := []) (by decide) (by decide)) (Gives.right (f (c := '/') (cs := []) (by decide) (by decide)) (Gives.right (f (c := '%') (cs := []) (by decide) (by decide))
      (Gives.right (f (c := '*') (cs := ['*']) (by decide) (by decide)) (Gives.right (f (c := '&') (cs := ['&']) (by decide) (by decide)) (Gives.right (f (c := '|') (cs := ['|']) (by decide) (by decide))
      (Gives.right (f (c := '&') (cs := []) (by decide) (by decide)) (Gives.right (f (c := '|') (cs := []) (by decide) (by decide)) (Gives.right (f (c := '^') (cs := []) (by decide) (by decide))
      (Gives.right (f (c := '<') (cs := ['<']) (by decide) (by decide)) (Gives.left (t (cs := ['>', '>']) (by decide))))))))))))))
  | join => exact Gives.right (f (c := '+') (cs := []) (by decide) (by decide)) (Gives.right (f (c := '-') (cs := []) (by decide) (by decide))
      (Gives.right (f (c := '*') (cs := []) (by decide) (by decide)) (Gives.right (f (c := '/') (cs := []) (by decide) (by decide)) (Gives.right (f (c := '%') (cs := []) (by decide) (by decide))
      (Gives.right (f (c := '*') (cs := ['*']) (by decide) (by decide)) (Gives.right (f (c := '&') (cs := ['&']) (by decide) (by decide)) (Gives.right (f (c := '|') (cs := ['|']) (by decide) (by decide))
      (Gives.right (f (c := '&') (cs := []) (by decide) (by decide)) (Gives.right (f (c := '|') (cs := []) (by decide) (by decide)) (Gives.right (f (c := '^') (cs := []) (by decide) (by decide))
      (Gives.right (f (c := '<') (cs := ['<']) (by decide) (by decide)) (Gives.right (f (c := '>') (cs := ['>']) (by decide) (by decide)) (t (cs := ['.', '.']) (by decide))))))))))))))

/-! ### Texts that do not continue an expression -/

/-- First characters of what can continue an expression after a gap (except `!=`, and calls). -/
def isCont (c : Char) : Bool := isOpHead c || c == ':' || c == '=' || c == '~' || c == '['

structure Quiet (r : List Char) : Prop where
  ns : NoSkip r
  cont : NotHead isCont r
  bang : ∀ u, r = '!' :: u → NotHead (· == '=') u

theorem noSkip_ws {r : List Char} (h : NoSkip r) : NotHead isSimpleWhitespace r := by
  cases r with
  | nil => trivial
  | cons c t =>
    show isSimpleWhitespace c = false
    cases hc : isSimpleWhitespace c with
    | false => rfl
    | true =>
      have := h 0
      simp only [skipPart, whitespace, simpleWhitespace, orElse, bind_def, cls, hc, if_true] at this
      cases this

theorem Quiet.fails_op {r : List Char} (h : Quiet r) (op : Infix) : Fails (Peg.str op.str) r := by
  have f : ∀ {w : String} {c : Char} {cs : List Char}, w.toList = c :: cs → isCont c = true → Fails (Peg.str w) r := fun hw hc => Fails.str hw (NotHead.ne h.cont hc)
  cases op
  case neq =>
    refine fails_str2 (c := '!') (d := '=') (by decide) ?_
    rintro u rfl
    have := h.bang _ rfl
    simp [NotHead] at this
  case range => exact f (c := ':') (cs := []) (by decide) (by decide)
  case and => exact f (c := '&') (cs := ['&']) (by decide) (by decide)
  case or => exact f (c := '|') (cs := ['|']) (by decide) (by decide)
  case eq => exact f (c := '=') (cs := ['=']) (by decide) (by decide)
  case gte => exact f (c := '>') (cs := ['=']) (by decide) (by decide)
  case lte => exact f (c := '<') (cs := ['=']) (by decide) (by decide)
  case gt => exact f (c := '>') (cs := []) (by decide) (by decide)
  case lt => exact f (c := '<') (cs := []) (by decide) (by decide)
  case bitAnd => exact f (c := '&') (cs := []) (by decide) (by decide)
  case bitOr => exact f (c := '|') (cs := []) (by decide) (by decide)
  case bitXor => exact f (c := '^') (cs := []) (by decide) (by decide)
  case shl => exact f (c := '<') (cs := ['<']) (by decide) (by decide)
  case shr => exact f (c := '>') (cs := ['>']) (by decide) (by decide)
  case tilde => exact f (c := '~') (cs := []) (by decide) (by decide)
  case join => exact f (c := '.') (cs := ['.']) (by decide) (by decide)
  case add => exact f (c := '+') (cs := []) (by decide) (by decide)
  case sub => exact f (c := '-') (cs := []) (by decide) (by decide)
  case mul => exact f (c := '*') (cs := []) (by decide) (by decide)
  case div => exact f (c := '/') (cs := []) (by decide) (by decide)
  case mod => exact f (c := '%') (cs := []) (by decide) (by decide)
  case pow => exact f (c := '*') (cs := ['*']) (by decide) (by decide)

/-- Blanks, then no parenthesis. -/
theorem fails_call {G : Gap} {r : List Char} (hG : NotHead isSimpleWhitespace r) (hp : NotHead (· == '(') r ∨ G.isWs = false) (f : P (Span → Node)) :
    Fails (do ws; Peg.str "("; f) (G.text ++ r) := by
  obtain ⟨g', h1, h2, h3, h4⟩ := takes_ws (g := G) hG
  refine Fails.take h4 (Fails.bind (Fails.char (c := '(') (by decide) ?_))
  rcases hp with hp | hp
  · exact Gap.notHead (gap_not (by decide)) hp
  · refine Gap.notHead_ne (gap_not (by decide)) ?_
    cases g' with
    | nil => exact absurd rfl (h3 hp)
    | cons i g => rfl

theorem Quiet.stop {r : List Char} (h : Quiet r) {G : Gap} (hG : G.ok = true) (hp : NotHead (· == '(') r ∨ G.isWs = false) : Stop 0 (G.text ++ r) := by
  refine stop_of ?_ ?_ ?_
  · intro rec _ l op _
    exact Fails.take (takes_skip hG h.ns) (Fails.bind (h.fails_op op))
  · intro _ f
    exact fails_call (noSkip_ws h.ns) hp f
  · intro _ f
    exact Fails.take (takes_skip hG h.ns) (Fails.bind (Fails.char (c := '[') (by decide) (NotHead.ne h.cont (by decide))))

theorem Quiet.assign {r : List Char} (h : Quiet r) {G : Gap} (hG : G.ok = true) : AssignSafe (G.text ++ r) := by
  intro rec _ f
  refine Fails.take (takes_skip hG h.ns) (Fails.take (Takes.opt_none (fails_opP (h.cont.imp ?_))) (Fails.bind (Fails.char (c := '=') (by decide) (NotHead.ne h.cont (by decide)))))
  intro c hc
  simp [isCont, hc]

/-- Closing brackets and the like. -/
theorem quiet_char {c : Char} {t : List Char} (h1 : isSkip c = false) (h2 : isCont c = false) (h3 : c ≠ '!') : Quiet (c :: t) :=
  ⟨noSkip_cons h1, h2, fun u hu => by injection hu with hu; exact absurd hu h3⟩

theorem quiet_nil : Quiet [] := ⟨noSkip_nil, trivial, fun u hu => by cases hu⟩

/-! ### Operators -/

/-- The first text cannot be read as an operator where the second is the operator. -/
def clash : List Char → List Char → Bool
  | [], [] => false
  | [], c :: _ => !exprStart c && !isSkip c
  | a :: _, [] => !isGapChar a && !exprStart a
  | a :: as, c :: cs => if a = c then clash as cs else true

theorem clash_all : (Infix.all.all fun op => Infix.all.all fun op' => decide (op = op') || clash op.text op'.text) = true := by decide

theorem clash_of {op op' : Infix} (h : op ≠ op') : clash op.text op'.text = true := by
  have := clash_all
  rw [List.all_eq_true] at this
  have := this op op.mem_all
  rw [List.all_eq_true] at this
  have := this op' op'.mem_all
  simpa [h] using this

theorem clash_spec : ∀ {a b u : List Char}, clash a b = true → Operand u →
    Fails (chars a) (b ++ u) ∨ ∃ c t, exprStart c = false ∧ isSkip c = false ∧ t.length + 1 + a.length ≤ (b ++ u).length ∧ Takes (chars a) (b ++ u) () (c :: t)
  | [], [], _, h, _ => by cases h
  | [], c :: cs, u, h, _ => by
    simp only [clash, Bool.and_eq_true, Bool.not_eq_true'] at h
    exact .inr ⟨c, cs ++ u, h.1, h.2, by simp, Gives.pure ⟨rfl, rfl⟩⟩
  | a :: as, [], u, h, hu => by
    simp only [clash, Bool.and_eq_true, Bool.not_eq_true'] at h
    exact .inl (Fails.chars (hu.ne h.1 h.2))
  | a :: as, c :: cs, u, h, hu => by
    by_cases e : a = c
    · subst e
      simp only [clash, if_true] at h
      have ht : Takes (cls (· == a)) (a :: (cs ++ u)) a (cs ++ u) := fun p => ⟨a, p + a.utf8Size, cs ++ u, by simp [cls], rfl, rfl⟩
      rcases clash_spec h hu with h1 | ⟨c, t, h1, h2, h3, h4⟩
      · exact .inl (Fails.take ht h1)
      · exact .inr ⟨c, t, h1, h2, by simp only [List.length_append, List.length_cons, List.cons_append] at h3 ⊢; omega, Takes.bind ht h4⟩
    · exact .inl (Fails.chars (show (c == a) = false by simpa using fun h => e h.symm))

/-- Another operator is not read. -/
theorem OpText.fails_other {op op' : Infix} {u : List Char} (h : OpText op' u) (hne : op ≠ op') {G : Gap} (hG : G.ok = true) {rec : Nat → P Node}
    (hr : RecBad (G.text ++ (op'.text ++ u)).length rec) (l : Node) : Fails (opStep rec l op) (G.text ++ (op'.text ++ u)) := by
  refine Fails.take (takes_skip hG h.noSkip) ?_
  have hs : Peg.str op.str = chars op.text := by unfold Peg.str; rw [op.str_text]
  rcases clash_spec (clash_of hne) h.operand with h1 | ⟨c, t, h1, h2, h3, h4⟩
  · rw [hs]; exact Fails.bind h1
  · rw [hs]
    refine Fails.take h4 (Fails.take (takes_skip_nil (noSkip_cons h2)) (Fails.bind (hr _ _ ?_ (badStart_cons h1 h2))))
    obtain ⟨a, as, ha⟩ := op.text_cons
    rw [ha] at h3
    simp only [List.length_append, List.length_cons] at h3 ⊢
    omega

theorem OpText.stop {op' : Infix} {u : List Char} (h : OpText op' u) {G : Gap} (hG : G.ok = true) {min : Nat} (hm : op'.lvl < min) : Stop min (G.text ++ (op'.text ++ u)) := by
  refine stop_of ?_ ?_ ?_
  · intro rec hr l op hop
    exact h.fails_other (by rintro rfl; omega) hG hr l
  · intro _ f
    exact fails_call (noSkip_ws h.noSkip) (.inl (OpText.notHead (by decide))) f
  · intro _ f
    exact Fails.take (takes_skip hG h.noSkip) (Fails.bind (Fails.char (c := '[') (by decide) (OpText.notHead (by decide))))

theorem OpText.assign {op' : Infix} {u : List Char} (h : OpText op' u) {G : Gap} (hG : G.ok = true) : AssignSafe (G.text ++ (op'.text ++ u)) := by
  intro rec hr f
  refine Fails.take (takes_skip hG h.noSkip) ?_
  have heq : ∀ {α : Type} {x : P α}, Fails (do Peg.str "="; x) u := fun {α x} => Fails.bind (Fails.char (c := '=') (by decide) (h.operand.ne (by decide) (by decide)))
  have hu : NotHead (fun c => c == '&' || c == '|') u := by
    obtain ⟨d, t, rfl, hd⟩ := h.operand
    show (d == '&' || d == '|') = false
    have h1 : d ≠ '&' := by rintro rfl; rcases hd with hd | hd <;> cases hd
    have h2 : d ≠ '|' := by rintro rfl; rcases hd with hd | hd <;> cases hd
    simp [h1, h2]
  have tk : ∀ a : AOp, Fails (do let op ← opt opP; Peg.str "="; skip; let e ← rec 3; pure (f op e) : P (Span → Node)) (a.text ++ u) := fun a =>
    Fails.take (takes_opP hu).opt_some heq
  have no : ∀ {c : Char} {t : List Char}, isOpHead c = false → c ≠ '=' → Fails (do let op ← opt opP; Peg.str "="; skip; let e ← rec 3; pure (f op e) : P (Span → Node)) (c :: t) :=
    fun h1 h2 => Fails.take (Takes.opt_none (fails_opP h1)) (Fails.bind (Fails.str_cons (c := '=') (cs := []) (by decide) h2))
  have ang : ∀ {c : Char} {t : List Char}, (c = '<' ∨ c = '>') → NotHead (· == c) t → Fails (do let op ← opt opP; Peg.str "="; skip; let e ← rec 3; pure (f op e) : P (Span → Node)) (c :: t) :=
    fun h1 h2 => Fails.take (Takes.opt_none (fails_opP_angle h1 h2)) (Fails.bind (Fails.str_cons (c := '=') (cs := []) (by decide) (by rcases h1 with rfl | rfl <;> decide)))
  cases op'
  case range => exact no (by decide) (by decide)
  case and => exact tk .and
  case or => exact tk .or
  case eq =>
    refine Fails.take (Takes.opt_none (fails_opP (show isOpHead '=' = false by decide))) (Fails.take (Takes.char (c := '=') (by decide) _) ?_)
    refine Fails.take (takes_skip_nil (noSkip_cons (by decide))) (Fails.bind (hr _ _ ?_ (badStart_cons (by decide) (by decide))))
    simp [Infix.text]
    omega
  case neq => exact no (by decide) (by decide)
  case gte => exact ang (.inr rfl) (show ('=' == '>') = false by decide)
  case lte => exact ang (.inl rfl) (show ('=' == '<') = false by decide)
  case gt => exact ang (.inr rfl) (h.operand.ne (by decide) (by decide))
  case lt => exact ang (.inl rfl) (h.operand.ne (by decide) (by decide))
  case bitAnd => exact tk .bitAnd
  case bitOr => exact tk .bitOr
  case bitXor => exact tk .bitXor
  case shl => exact tk .shl
  case shr => exact tk .shr
  case tilde => exact no (by decide) (by decide)
  case join => exact tk .join
  case add => exact tk .add
  case sub => exact tk .sub
  case mul => exact tk .mul
  case div => exact tk .div
  case mod => exact tk .mod
  case pow =>
    refine Fails.take (takes_opP (a := .mul) (u := '*' :: u) (show ('*' == '&' || '*' == '|') = false by decide)).opt_some ?_
    exact Fails.bind (Fails.str_cons (c := '=') (cs := []) (by decide) (by decide))

/-! ## What follows an expression -/

namespace Cst
/-- The least level at which a part of the expression at its right end is read. -/
def rl : Cst → Nat
  | ret _ => 0
  | assign .. | decl .. | declMany .. | extern .. => 3
  | bin op .. => op.lvl + 1
  | un .. => 17
  | _ => 18

/-- The greatest level at which the expression can be read. -/
def slvl : Cst → Nat
  | bin op .. => op.lvl
  | call .. | index .. => 17
  | _ => 18
end Cst

/-- What follows does not become part of the expression. -/
structure After (c : Cst) (G : Gap) (r : List Char) : Prop where
  gok : G.ok = true
  ns : NoSkip r
  lit : LitSafe c.endsInt (G.text ++ r)
  asg : AssignSafe (G.text ++ r)
  stop : Stop c.rl (G.text ++ r)
  wide : c.wide = true → Fails (kw "else") r ∧ ∀ G' : Gap, G'.ok = true → Stop c.rl (G'.text ++ r)
  bare : c.bareRet = true → NotHead exprStart r

/-- Two expressions with the same end. -/
theorem After.sub {c d : Cst} {G : Gap} {r : List Char} (h : After c G r) (h1 : c.rl ≤ d.rl) (h2 : d.endsInt = c.endsInt) (h3 : d.wide = c.wide) (h4 : d.bareRet = c.bareRet) : After d G r where
  gok := h.gok
  ns := h.ns
  lit := by rw [h2]; exact h.lit
  asg := h.asg
  stop := h.stop.mono h1
  wide hw := ⟨(h.wide (h3 ▸ hw)).1, fun G' hG' => ((h.wide (h3 ▸ hw)).2 G' hG').mono h1⟩
  bare hb := h.bare (h4 ▸ hb)

/-- Closing brackets and commas. -/
def isCloser (c : Char) : Bool := c == ',' || c == ')' || c == ']' || c == '}' || c == '{'

theorem isCloser_cases {c : Char} (h : isCloser c = true) : c = ',' ∨ c = ')' ∨ c = ']' ∨ c = '}' ∨ c = '{' := by
  simpa [isCloser, or_assoc] using h

theorem after_close {c : Cst} {G : Gap} {d : Char} {r : List Char} (hG : G.ok = true) (hd : isCloser d = true) (hb : c.bareRet = true → d ≠ '{') : After c G (d :: r) := by
  have hq : Quiet (d :: r) := by rcases isCloser_cases hd with rfl | rfl | rfl | rfl | rfl <;> exact quiet_char (by decide) (by decide) (by decide)
  have hp : NotHead (· == '(') (d :: r) := by rcases isCloser_cases hd with rfl | rfl | rfl | rfl | rfl <;> exact (show (_ == '(') = false by decide)
  refine ⟨hG, hq.ns, ?_, hq.assign hG, (hq.stop hG (.inl hp)).mono (Nat.zero_le _), fun _ => ⟨?_, fun G' hG' => (hq.stop hG' (.inl hp)).mono (Nat.zero_le _)⟩, fun h => ?_⟩
  · rcases isCloser_cases hd with rfl | rfl | rfl | rfl | rfl <;> exact litSafe_gap (by decide) (by decide) (by decide) (by decide) hG
  · refine fails_kw_head (c := 'e') (cs := ['l', 's', 'e']) (by decide) ?_
    rcases isCloser_cases hd with rfl | rfl | rfl | rfl | rfl <;> exact (show (_ == 'e') = false by decide)
  · have := hb h
    rcases isCloser_cases hd with rfl | rfl | rfl | rfl | rfl
    all_goals first | exact absurd rfl this | exact (show exprStart _ = false by decide)

theorem stop_close {G : Gap} {d : Char} {r : List Char} {min : Nat} (hG : G.ok = true) (hd : isCloser d = true) : Stop min (G.text ++ d :: r) := by
  have hq : Quiet (d :: r) := by rcases isCloser_cases hd with rfl | rfl | rfl | rfl | rfl <;> exact quiet_char (by decide) (by decide) (by decide)
  have hp : NotHead (· == '(') (d :: r) := by rcases isCloser_cases hd with rfl | rfl | rfl | rfl | rfl <;> exact (show (_ == '(') = false by decide)
  exact (hq.stop hG (.inl hp)).mono (Nat.zero_le _)

theorem litSafe_end {b : Bool} {G : Gap} (hG : G.ok = true) : LitSafe b (G.text ++ []) where
  word := Gap.notHead (gap_not (by decide)) trivial
  dot := dotOk_of (Gap.notHead (gap_not (by decide)) trivial)
  colon _ v := Fails.take (takes_skip hG noSkip_nil) (Fails.bind (Fails.str (c := ':') (cs := []) (by decide) trivial))

theorem after_nil {c : Cst} {G : Gap} (hG : G.ok = true) : After c G [] :=
  ⟨hG, noSkip_nil, litSafe_end hG, quiet_nil.assign hG, (quiet_nil.stop hG (.inl trivial)).mono (Nat.zero_le _),
    fun _ => ⟨fails_kw_head (c := 'e') (cs := ['l', 's', 'e']) (by decide) trivial, fun G' hG' => (quiet_nil.stop hG' (.inl trivial)).mono (Nat.zero_le _)⟩, fun _ => trivial⟩

theorem stop_nil {G : Gap} {min : Nat} (hG : G.ok = true) : Stop min (G.text ++ []) := (quiet_nil.stop hG (.inl trivial)).mono (Nat.zero_le _)

/-- Operands of operators. -/
theorem Cst.rl_of_lvl {a : Cst} {n : Nat} (h1 : n ≤ a.lvl) (h2 : 3 ≤ n) (h3 : n ≤ 16) : n < a.rl := by
  cases a <;> simp only [Cst.lvl, Cst.rl] at h1 ⊢ <;> omega

theorem Cst.narrow_of_lvl {a : Cst} (h1 : 3 ≤ a.lvl) : a.wide = false ∧ a.bareRet = false := by
  cases a <;> first | exact ⟨rfl, rfl⟩ | (simp [Cst.lvl] at h1)

theorem Infix.lvl_bounds (op : Infix) : 8 ≤ op.lvl ∧ op.lvl ≤ 15 := by cases op <;> simp [Infix.lvl]

/-- The left operand. -/
theorem after_op {op : Infix} {a b : Cst} {g g' : Gap} (h : (Cst.bin op a g g' b).ok = true) (r : List Char) : After a g (op.text ++ (g'.text ++ (b.text ++ r))) := by
  obtain ⟨ho, hl⟩ := bin_follow h r
  simp only [Cst.ok, Bool.and_eq_true, decide_eq_true_eq] at h
  have hb := op.lvl_bounds
  have hn := Cst.narrow_of_lvl (a := a) (by omega)
  have hg : g.ok = true := h.1.1.1.1.1.2
  exact ⟨hg, ho.noSkip, hl, ho.assign hg, ho.stop hg (Cst.rl_of_lvl h.1.1.1.1.1.1.2 (by omega) (by omega)), fun h => (by rw [hn.1] at h; cases h), fun h => by rw [hn.2] at h; cases h⟩

/-- What is called or indexed. -/
theorem after_open {f : Cst} {g : Gap} {d : Char} {r : List Char} (hl : 17 ≤ f.lvl) (hg : g.ok = true) (hd : d = '(' ∨ d = '[') : After f g (d :: r) := by
  have hn := Cst.narrow_of_lvl (a := f) (by omega)
  have hrl : 18 ≤ f.rl := by
    cases f <;> simp only [Cst.lvl, Cst.rl] at hl ⊢ <;> first | omega | (rename_i op _ _ _ _; have := op.lvl_bounds; omega)
  have hns : NoSkip (d :: r) := by rcases hd with rfl | rfl <;> exact noSkip_cons (by decide)
  refine ⟨hg, hns, litSafe_open hg hd, ?_, stop_high hrl, fun h => (by rw [hn.1] at h; cases h), fun h => by rw [hn.2] at h; cases h⟩
  intro rec _ f
  refine Fails.take (takes_skip hg hns) (Fails.take (Takes.opt_none (fails_opP ?_)) (Fails.bind (Fails.char (c := '=') (by decide) ?_)))
  · rcases hd with rfl | rfl <;> exact (show isOpHead _ = false by decide)
  · rcases hd with rfl | rfl <;> exact (show (_ == '=') = false by decide)

/-! ## The next statement -/

def isSign (c : Char) : Bool := c == '!' || c == '-' || c == '~'

theorem isSign_id {c : Char} (h : isIdStart c = true) : isSign c = false := by
  cases hs : isSign c with
  | false => rfl
  | true =>
    simp only [isSign, Bool.or_eq_true, beq_iff_eq] at hs
    rcases hs with (rfl | rfl) | rfl <;> cases h

/-- There is no `=` after a sign at the beginning. -/
def SignOk (s : List Char) : Prop := ∀ d u, s = d :: u → isSign d = true → NotHead (· == '=') u

theorem signOk_head {c : Char} {t : List Char} (h : isSign c = false) : SignOk (c :: t) := fun d u e hd => by
  injection e with e1 e2
  rw [← e1, h] at hd; cases hd

theorem isDig_ne_eq {c : Char} (h : isDig c = true) : (c == '=') = false := by
  have := isDig_iff h
  cases hc : c == '=' with
  | false => rfl
  | true => rw [eq_of_beq hc] at h; cases h

theorem LitC.signOk {l : LitC} (h : l.ok = true) (s : List Char) : SignOk (l.text ++ s) := by
  have dig : ∀ {ds t : List Char}, ds.isEmpty = false → ds.all isDig = true → SignOk (ds ++ t) := by
    intro ds t h1 h2
    cases ds with
    | nil => cases h1
    | cons c ds =>
      simp only [List.all_cons, Bool.and_eq_true] at h2
      refine signOk_head ?_
      cases hs : isSign c with
      | false => rfl
      | true =>
        simp only [isSign, Bool.or_eq_true, beq_iff_eq] at hs
        rcases hs with (rfl | rfl) | rfl <;> cases h2.1
  have neg : ∀ {ds t : List Char}, ds.isEmpty = false → ds.all isDig = true → SignOk ('-' :: (ds ++ t)) := by
    intro ds t h1 h2
    cases ds with
    | nil => cases h1
    | cons c ds =>
      simp only [List.all_cons, Bool.and_eq_true] at h2
      intro d u e _
      injection e with _ e
      subst e
      exact isDig_ne_eq h2.1
  have num : ∀ {n : SNum} {t : List Char}, n.dig = true → SignOk (n.text ++ t) := by
    intro n t hn
    cases n with
    | pos n =>
      cases n with
      | dec ds =>
        simp only [SNum.dig, Num.digits, Bool.and_eq_true, Bool.not_eq_true'] at hn
        exact dig hn.1 hn.2
      | bin ds => exact signOk_head (by decide)
      | hex ds => exact signOk_head (by decide)
      | oct ds => exact signOk_head (by decide)
    | neg ds =>
      simp only [SNum.dig, Bool.and_eq_true, Bool.not_eq_true'] at hn
      exact neg hn.1 hn.2
  cases l with
  | none => exact signOk_head (by decide)
  | bool b => cases b <;> exact signOk_head (by decide)
  | color ds => exact signOk_head (by decide)
  | float n ds fs =>
    simp only [LitC.ok, Bool.and_eq_true, Bool.not_eq_true'] at h
    cases n with
    | true =>
      have e : (LitC.float true ds fs).text ++ s = '-' :: (ds ++ ('.' :: fs ++ s)) := by simp [LitC.text]
      rw [e]
      exact neg h.1.1.1 h.1.1.2
    | false =>
      have e : (LitC.float false ds fs).text ++ s = ds ++ ('.' :: fs ++ s) := by simp [LitC.text]
      rw [e]
      exact dig h.1.1.1 h.1.1.2
  | int n => exact num (SNum.dig_of_ok h)
  | range a g g' b =>
    simp only [LitC.ok, Bool.and_eq_true] at h
    rw [LitC.text]
    simp only [List.append_assoc]
    exact num (SNum.dig_of_ok h.1.1.1)
  | str cs => exact signOk_head (by decide)
  | pair => exact signOk_head (by decide)
  | arr => exact signOk_head (by decide)

theorem Cst.signOk : ∀ {c : Cst}, c.ok = true → ∀ s, SignOk (c.text ++ s)
  | .lit l, h, s => by
    simp only [Cst.ok, Bool.and_eq_true] at h
    exact LitC.signOk h.1 s
  | .ident x, h, s => by
    obtain ⟨c, cs, h1, h2, _⟩ := nameOk_iff h
    rw [Cst.text, h1]
    exact signOk_head (isSign_id h2)
  | .assign x g op g' e, h, s => by
    simp only [Cst.ok, Bool.and_eq_true] at h
    obtain ⟨c, cs, h1, h2, _⟩ := nameOk_iff h.1.1.1.1
    rw [Cst.text, h1]
    exact signOk_head (isSign_id h2)
  | .call f g g0 es, h, s => by
    simp only [Cst.ok, Bool.and_eq_true] at h
    rw [show (Cst.call f g g0 es).text ++ s = f.text ++ (g.text ++ '(' :: (g0.text ++ commas (Cst.texts es) ++ [')'] ++ s)) by simp [Cst.text]]
    exact Cst.signOk h.1.1.1.1 _
  | .index f g g1 i g2, h, s => by
    simp only [Cst.ok, Bool.and_eq_true] at h
    rw [show (Cst.index f g g1 i g2).text ++ s = f.text ++ (g.text ++ '[' :: (g1.text ++ i.text ++ g2.text ++ [']'] ++ s)) by simp [Cst.text]]
    exact Cst.signOk h.1.1.1.1.1 _
  | .bin op a g g' b, h, s => by
    simp only [Cst.ok, Bool.and_eq_true] at h
    rw [show (Cst.bin op a g g' b).text ++ s = a.text ++ (g.text ++ (op.text ++ (g'.text ++ (b.text ++ s)))) by simp [Cst.text]]
    exact Cst.signOk h.1.1.1.1.1.1.1 _
  | .un op g e, h, s => by
    simp only [Cst.ok, Bool.and_eq_true] at h
    intro d u hu _
    rw [show (Cst.un op g e).text ++ s = op.char :: (g.text ++ (e.text ++ s)) by simp [Cst.text]] at hu
    injection hu with _ hu
    subst hu
    exact (operand_of h.1.1.2 g s).ne (by decide) (by decide)
  | .paren .., _, s => by rw [Cst.text]; exact signOk_head (by decide)
  | .array .., _, s => by rw [Cst.text]; exact signOk_head (by decide)
  | .pair .., _, s => by rw [Cst.text]; exact signOk_head (by decide)
  | .builtin .., _, s => by rw [Cst.text]; exact signOk_head (by decide)
  | .decl .., _, s => by rw [Cst.text]; exact signOk_head (by decide)
  | .declMany .., _, s => by rw [Cst.text]; exact signOk_head (by decide)
  | .extern .., _, s => by rw [Cst.text]; exact signOk_head (by decide)
  | .func .., _, s => by rw [Cst.text]; exact signOk_head (by decide)
  | .lambda .., _, s => by rw [Cst.text]; exact signOk_head (by decide)
  | .while .., _, s => by rw [Cst.text]; exact signOk_head (by decide)
  | .forIn .., _, s => by rw [Cst.text]; exact signOk_head (by decide)
  | .forMany .., _, s => by rw [Cst.text]; exact signOk_head (by decide)
  | .ctx .., _, s => signOk_head (c := 'w') (by decide)
  | .include .., _, s => by rw [Cst.text]; exact signOk_head (by decide)
  | .block .., _, s => by rw [Cst.text]; exact signOk_head (by decide)
  | .ifThen .., _, s => by rw [Cst.text]; exact signOk_head (by decide)
  | .ifElse .., _, s => by rw [Cst.text]; exact signOk_head (by decide)
  | .elseIf .., _, s => by rw [Cst.text]; exact signOk_head (by decide)
  | .switch .., _, s => by rw [Cst.text]; exact signOk_head (by decide)
  | .ret .., _, s => by rw [Cst.text]; exact signOk_head (by decide)
termination_by structural c => c

theorem fails_else_head {c : Char} {t : List Char} (h : c ≠ 'e') : Fails (kw "else") (c :: t) :=
  fails_kw_head (c := 'e') (cs := ['l', 's', 'e']) (by decide) (show (c == 'e') = false by simpa using h)

theorem fails_else_name {x : String} {t : List Char} (h : nameOk x = true) (ht : NotHead isIdChar t) : Fails (kw "else") (x.toList ++ t) := by
  obtain ⟨_, _, _, _, h3, _, _, h4⟩ := nameOk_iff h
  exact fails_kw (by decide) h3 (fun e => h4 (String.ext e.symm)) ht

/-- No expression begins with `else`. -/
theorem Cst.fails_else : ∀ {c : Cst}, c.ok = true → ∀ {s : List Char}, NotHead isIdChar s → Fails (kw "else") (c.text ++ s)
  | .lit l, h, s, hs => by
    simp only [Cst.ok, Bool.and_eq_true] at h
    obtain ⟨c, t, h1, h2⟩ := LitC.head h.1
    rw [Cst.text, h1]
    refine fails_else_head ?_
    rintro rfl
    rcases h2 with h2 | h2 | h2 | h2 <;> cases h2
  | .ident x, h, s, hs => fails_else_name h hs
  | .assign x g op g' e, h, s, hs => by
    simp only [Cst.ok, Bool.and_eq_true] at h
    rw [Cst.text]
    simp only [List.append_assoc]
    exact fails_else_name h.1.1.1.1 (Gap.notHead (gap_not (by decide)) (aop_notHead (by decide) _))
  | .call f g g0 es, h, s, hs => by
    simp only [Cst.ok, Bool.and_eq_true] at h
    rw [show (Cst.call f g g0 es).text ++ s = f.text ++ (g.text ++ '(' :: (g0.text ++ commas (Cst.texts es) ++ [')'] ++ s)) by simp [Cst.text]]
    exact Cst.fails_else h.1.1.1.1 (Gap.notHead (gap_not (by decide)) (show isIdChar '(' = false by decide))
  | .index f g g1 i g2, h, s, hs => by
    simp only [Cst.ok, Bool.and_eq_true] at h
    rw [show (Cst.index f g g1 i g2).text ++ s = f.text ++ (g.text ++ '[' :: (g1.text ++ i.text ++ g2.text ++ [']'] ++ s)) by simp [Cst.text]]
    exact Cst.fails_else h.1.1.1.1.1 (Gap.notHead (gap_not (by decide)) (show isIdChar '[' = false by decide))
  | .bin op a g g' b, h, s, hs => by
    simp only [Cst.ok, Bool.and_eq_true] at h
    rw [show (Cst.bin op a g g' b).text ++ s = a.text ++ (g.text ++ (op.text ++ (g'.text ++ (b.text ++ s)))) by simp [Cst.text]]
    exact Cst.fails_else h.1.1.1.1.1.1.1 (Gap.notHead (gap_not (by decide)) (OpText.notHead isIdChar_ops))
  | .un op g e, h, s, hs => by rw [Cst.text]; exact fails_else_head (by cases op <;> decide)
  | .paren .., _, s, _ => by rw [Cst.text]; exact fails_else_head (by decide)
  | .array .., _, s, _ => by rw [Cst.text]; exact fails_else_head (by decide)
  | .pair .., _, s, _ => by rw [Cst.text]; exact fails_else_head (by decide)
  | .builtin .., _, s, _ => by rw [Cst.text]; exact fails_else_head (by decide)
  | .decl .., _, s, _ => by rw [Cst.text]; exact fails_else_head (by decide)
  | .declMany .., _, s, _ => by rw [Cst.text]; exact fails_else_head (by decide)
  | .extern g0 x g g' e, _, s, _ => by
    unfold kw
    refine Fails.bind (fun p => ?_)
    rw [show (Cst.extern g0 x g g' e).text ++ s = 'e' :: 'x' :: (['t', 'e', 'r', 'n', 'a', 'l'] ++ g0.text ++ x.toList ++ g.text ++ '=' :: (g'.text ++ e.text) ++ s) by simp [Cst.text]]
    rfl
  | .func .., _, s, _ => by rw [Cst.text]; exact fails_else_head (by decide)
  | .lambda .., _, s, _ => by rw [Cst.text]; exact fails_else_head (by decide)
  | .while .., _, s, _ => by rw [Cst.text]; exact fails_else_head (by decide)
  | .forIn .., _, s, _ => by rw [Cst.text]; exact fails_else_head (by decide)
  | .forMany .., _, s, _ => by rw [Cst.text]; exact fails_else_head (by decide)
  | .ctx .., _, s, _ => fails_else_head (c := 'w') (by decide)
  | .include .., _, s, _ => by rw [Cst.text]; exact fails_else_head (by decide)
  | .block .., _, s, _ => by rw [Cst.text]; exact fails_else_head (by decide)
  | .ifThen .., _, s, _ => by rw [Cst.text]; exact fails_else_head (by decide)
  | .ifElse .., _, s, _ => by rw [Cst.text]; exact fails_else_head (by decide)
  | .elseIf .., _, s, _ => by rw [Cst.text]; exact fails_else_head (by decide)
  | .switch .., _, s, _ => by rw [Cst.text]; exact fails_else_head (by decide)
  | .ret .., _, s, _ => by rw [Cst.text]; exact fails_else_head (by decide)
termination_by structural c => c

theorem isCont_expr {c : Char} (h : exprStart c = true) (h1 : c ≠ '-') (h2 : c ≠ '~') (h3 : c ≠ '[') : isCont c = false := by
  have hx : ∀ d, isCont d = true → exprStart d = true → d = '-' ∨ d = '~' ∨ d = '[' := by
    intro d hd he
    simp only [isCont, isOpHead, Bool.or_eq_true, beq_iff_eq] at hd
    rcases hd with ((((((((((((((rfl | rfl) | rfl) | rfl) | rfl) | rfl) | rfl) | rfl) | rfl) | rfl) | rfl)) | rfl) | rfl) | rfl) | rfl
    all_goals first | (left; rfl) | (right; left; rfl) | (right; right; rfl) | cases he
  cases hc : isCont c with
  | false => rfl
  | true => rcases hx c hc h with h | h | h
            · exact absurd h h1
            · exact absurd h h2
            · exact absurd h h3

/-- A statement and the next one. -/
theorem after_next {c d : Cst} {G : Gap} {s s' : List Char} (hd : d.ok = true) (hG : G.ok = true) (hf : fresh c.wide G (d.text ++ s') = true) (hb : c.bareRet = false) (hs : NotHead isIdChar s) :
    After c G (d.text ++ s) ∧ Stop 0 (G.text ++ (d.text ++ s)) ∧ (c.wide = true → ∀ G' : Gap, G'.ok = true → Stop 0 (G'.text ++ (d.text ++ s))) := by
  obtain ⟨a, t, ha, he⟩ := Cst.head hd
  unfold fresh at hf
  rw [ha] at hf
  simp only [List.cons_append, List.head?_cons, Bool.and_eq_true, Bool.not_eq_true', bne_iff_ne, Bool.or_eq_true] at hf
  obtain ⟨⟨hne, _⟩, ⟨⟨h1, h2⟩, h3⟩, h4⟩ := hf
  have hq : Quiet (d.text ++ s) := by
    refine ⟨Cst.noSkip hd s, ?_, fun u hu => Cst.signOk hd s _ _ hu (by decide)⟩
    rw [ha]
    exact isCont_expr he h1 h2 h3
  have hp : NotHead (· == '(') (d.text ++ s) ∨ (c.wide = false ∧ G.isWs = false) := by
    rcases h4 with h4 | h4
    · left; rw [ha]; exact (show (a == '(') = false by simpa using h4)
    · exact .inr h4
  have hp' : NotHead (· == '(') (d.text ++ s) ∨ G.isWs = false := hp.imp id fun h => h.2
  have hw : c.wide = true → ∀ G' : Gap, G'.ok = true → Stop 0 (G'.text ++ (d.text ++ s)) := fun hw G' hG' =>
    hq.stop hG' (.inl (hp.resolve_right (by rw [hw]; simp)))
  have h0 := hq.stop hG hp'
  refine ⟨⟨hG, hq.ns, ?_, hq.assign hG, h0.mono (Nat.zero_le _), fun h => ⟨Cst.fails_else hd hs, fun G' hG' => (hw h G' hG').mono (Nat.zero_le _)⟩, fun h => by rw [hb] at h; cases h⟩, h0, hw⟩
  exact ⟨Gap.notHead_ne (gap_not (by decide)) hne, dotOk_of (Gap.notHead_ne (gap_not (by decide)) hne),
    fun _ v => Fails.take (takes_skip hG hq.ns) (Fails.bind (Fails.char (c := ':') (by decide) (NotHead.ne hq.cont (by decide))))⟩

/-- The condition after `if` is not assigned to `if`. -/
theorem assignSafe_expr {c : Cst} {G : Gap} {s : List Char} (hc : c.ok = true) (hG : G.ok = true) : AssignSafe (G.text ++ (c.text ++ s)) := by
  intro rec _ f
  refine Fails.take (takes_skip hG (Cst.noSkip hc s)) ?_
  obtain ⟨d, t, hd, he⟩ := Cst.head hc
  have hs := Cst.signOk hc s
  rw [hd] at hs ⊢
  by_cases h1 : d = '-'
  · subst h1
    have h2 : NotHead (· == '=') (t ++ s) := hs _ _ rfl (by decide)
    have ht : Takes opP ('-' :: (t ++ s)) .sub (t ++ s) := by
      unfold opP
      exact Gives.right (Fails.bind (Fails.str_cons (c := '+') (cs := []) (by decide) (by decide))) (Gives.left (Takes.bind (Takes.char (c := '-') (by decide) _) (Gives.pure ⟨rfl, rfl⟩)))
    exact Fails.take ht.opt_some (Fails.bind (Fails.char (c := '=') (by decide) h2))
  · refine Fails.take (Takes.opt_none (fails_opP (s := d :: (t ++ s)) ?_)) (Fails.bind (Fails.str_cons (c := '=') (cs := []) (by decide) (exprStart_ne he (by decide))))
    show isOpHead d = false
    cases ho : isOpHead d with
    | false => rfl
    | true =>
      simp only [isOpHead, Bool.or_eq_true, beq_iff_eq] at ho
      rcases ho with (((((((((rfl | rfl) | rfl) | rfl) | rfl) | rfl) | rfl) | rfl) | rfl) | rfl) | rfl
      all_goals first | exact absurd rfl h1 | cases he

end Quilt.Cs
