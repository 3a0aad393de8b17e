/-!
# A small preprocessor

The conditional parts of the headers of /repo are programs for the preprocessor.  Here is as much of that language as they use:
conditions on macros, `#define`, `#undef`, include guards, the diagnostics pragmas.  What is left between the directives
(declarations) is recorded as it comes by.

Simplification: the value of a macro is an integer; a macro that is defined to be empty, or to something that is not a number, has a
number as its value that is explained where it is defined.  In a condition an undefined macro is 0, as in C++.
-/

namespace Verif.Preproc

variable {M F D : Type} [DecidableEq M] [DecidableEq F]

/-- The macros that are defined. -/
abbrev Env (M : Type) := M → Option Int

def Env.has (E : Env M) (m : M) : Bool := (E m).isSome
/-- The value of a macro in a condition: undefined ones count as 0. -/
def Env.val (E : Env M) (m : M) : Int := (E m).getD 0
def Env.set (E : Env M) (m : M) (v : Option Int) : Env M := fun x => if x = m then v else E x

/-- Arithmetic in conditions. -/
inductive Num (M : Type)
  | mac (m : M)
  | lit (n : Int)
  | add (a b : Num M)
  | sub (a b : Num M)
  | mul (a b : Num M)

def Num.eval (E : Env M) : Num M → Int
  | .mac m => E.val m
  | .lit n => n
  | .add a b => a.eval E + b.eval E
  | .sub a b => a.eval E - b.eval E
  | .mul a b => a.eval E * b.eval E

/-- Conditions. -/
inductive Cond (M : Type)
  | defd (m : M)
  | ge (a b : Num M)
  | eq (a b : Num M)
  | nonzero (a : Num M)
  | not (c : Cond M)
  | and (c d : Cond M)
  | or (c d : Cond M)

def Cond.eval (E : Env M) : Cond M → Bool
  | .defd m => E.has m
  | .ge a b => decide (b.eval E ≤ a.eval E)
  | .eq a b => decide (a.eval E = b.eval E)
  | .nonzero a => decide (a.eval E ≠ 0)
  | .not c => !c.eval E
  | .and c d => c.eval E && d.eval E
  | .or c d => c.eval E || d.eval E

/-- Directives. -/
inductive Prog (M F D : Type)
  | skip
  /-- `#define m v` -/
  | define (m : M) (v : Int)
  | undef (m : M)
  /-- a declaration; `#error` is recorded as one, too -/
  | decl (d : D)
  /-- `#pragma ... push`, `pop` of the diagnostics state -/
  | push
  | pop
  | seq (p q : Prog M F D)
  /-- `#if c p #else q #endif` -/
  | cond (c : Cond M) (p q : Prog M F D)
  /-- a file with an include guard -/
  | file (f : F) (p : Prog M F D)

/-- Where the preprocessor is. -/
structure St (M F D : Type) where
  env : Env M
  /-- the files included, the latest first -/
  files : List F
  /-- the declarations, the latest first -/
  decls : List D
  /-- the saved diagnostics states: `true` if saved by this library -/
  saved : List Bool

/-- Take the diagnostics state saved last; without one the state of the command line is used. -/
def pops : List Bool → List Bool
  | [] => []
  | _ :: l => l

def Prog.run : Prog M F D → St M F D → St M F D
  | .skip, s => s
  | .define m v, s => { s with env := s.env.set m (some v) }
  | .undef m, s => { s with env := s.env.set m none }
  | .decl d, s => { s with decls := d :: s.decls }
  | .push, s => { s with saved := true :: s.saved }
  | .pop, s => { s with saved := pops s.saved }
  | .seq p q, s => q.run (p.run s)
  | .cond c p q, s => match c.eval s.env with
    | true => p.run s
    | false => q.run s
  | .file f p, s => if f ∈ s.files then s else p.run { s with files := f :: s.files }

/-- The beginning of a translation unit. -/
def start (E : Env M) (saved : List Bool) : St M F D := ⟨E, [], [], saved⟩

/-- `#if` without `#else` -/
def Prog.when (c : Cond M) (p : Prog M F D) : Prog M F D := .cond c p .skip

infixr:60 " ;; " => Prog.seq

/-- The program of a translation unit that includes the files `fs` one after the other. -/
def includes (table : F → Prog M F D) : List F → Prog M F D
  | [] => .skip
  | f :: fs => .file f (table f) ;; includes table fs

end Verif.Preproc
