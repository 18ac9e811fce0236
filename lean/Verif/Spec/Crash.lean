import Verif.Spec.TplText
import Verif.Model.Matcher

/-
Crashes: panics with a run-time error of Go, as opposed to the MatchError of `!` and to what
callbacks panic with.  And grammar texts in which no `!` is alone.
-/
namespace Tpl.Spec
open Tpl
variable {A B σ V P : Type}

/-- A run-time error: a nil dereference or a slice out of range. -/
inductive Crash : Panic A P → Prop
  | nil : Crash .nilDeref
  | slice : Crash .slice

/-- Callbacks that do not crash themselves: if what they do with the matcher (for the grammars `W`)
does not crash, they do not. -/
structure Decent (W : Gr A → Prop) (sem : Sem A σ V P) : Prop where
  act : ∀ f m, (∀ g src s p s', W g → m g src s = some (.panic p s') → ¬ Crash p) →
    ∀ a g toks s p s', sem.act f m a g toks s = some (.panic p s') → ¬ Crash p
  start : ∀ a s p s', sem.start a s = .panic p s' → ¬ Crash p
  finish : ∀ a v e s p s', sem.finish a v e s = .panic p s' → ¬ Crash p

/-- The rules a callback can ask for (`EvalSub`). -/
def RuleOf (r : CompileRet B) (g : Gr B) : Prop := ∃ name, r.tab.grammars.lookup name = some g

/-- Markers that make an action or a transaction of a grammar, or leave it as it is. -/
def Wraps (mk : Marker B) : Prop := ∀ g mark x, mk g mark = .ok x → x = g ∨ ∃ l, x = .action l g ∨ x = .trans l g

mutual
/-- Is there an alternative that is nothing but `!`? -/
def Fac.loneCut : Fac → Bool
  | .ident _ | .char _ | .string _ | .int _ => false
  | .rep0 f | .rep1 f | .rep01 f | .not f | .peek f => f.loneCut
  | .paren g => g.loneCut
def Sufs.loneCut : Sufs → Bool
  | .nil => false
  | .list f r | .list0 f r => f.loneCut || r.loneCut
  | .mark _ r => r.loneCut
def Item.loneCut : Item → Bool
  | .term f s => f.loneCut || s.loneCut
  | .cut => false
def ItemSeq.loneCut : ItemSeq → Bool
  | .nil => false
  | .cons i r => i.loneCut || r.loneCut
def Alts.loneCut : Alts → Bool
  | .one .cut .nil => true
  | .one i is => i.loneCut || is.loneCut
  | .alt .cut .nil _ => true
  | .alt i is r => i.loneCut || is.loneCut || r.loneCut
end

end Tpl.Spec
