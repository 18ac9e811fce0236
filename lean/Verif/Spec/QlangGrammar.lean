import Verif.Spec.TplText
import Verif.Model.Qlang

/-!
The grammar of qlang as a syntax tree.
-/
namespace Tpl.Qlang
open Spec

def rule_term1 : Rule := ⟨str "term1",
      (.one (.term (.ident (str "factor")) .nil) (.cons (.term (.rep0 (.paren (.alt (.term (.char (str "'*'")) .nil) (.cons (.term (.ident (str "factor")) (.mark (str "mul") .nil)) .nil)
      (.alt (.term (.char (str "'/'")) .nil) (.cons (.term (.ident (str "factor")) (.mark (str "quo") .nil)) .nil)
      (.one (.term (.char (str "'%'")) .nil) (.cons (.term (.ident (str "factor")) (.mark (str "mod") .nil)) .nil)))))) .nil) .nil))⟩

def rule_term2 : Rule := ⟨str "term2",
      (.one (.term (.ident (str "term1")) .nil) (.cons (.term (.rep0 (.paren (.alt (.term (.char (str "'+'")) .nil) (.cons (.term (.ident (str "term1")) (.mark (str "add") .nil)) .nil)
      (.one (.term (.char (str "'-'")) .nil) (.cons (.term (.ident (str "term1")) (.mark (str "sub") .nil)) .nil))))) .nil) .nil))⟩

def rule_term3 : Rule := ⟨str "term3",
      (.one (.term (.ident (str "term2")) .nil) (.cons (.term (.rep0 (.paren (.alt (.term (.char (str "'<'")) .nil) (.cons (.term (.ident (str "term2")) (.mark (str "lt") .nil)) .nil)
      (.alt (.term (.char (str "'>'")) .nil) (.cons (.term (.ident (str "term2")) (.mark (str "gt") .nil)) .nil)
      (.alt (.term (.string (str "\"==\"")) .nil) (.cons (.term (.ident (str "term2")) (.mark (str "eq") .nil)) .nil)
      (.alt (.term (.string (str "\"<=\"")) .nil) (.cons (.term (.ident (str "term2")) (.mark (str "le") .nil)) .nil)
      (.alt (.term (.string (str "\">=\"")) .nil) (.cons (.term (.ident (str "term2")) (.mark (str "ge") .nil)) .nil)
      (.one (.term (.string (str "\"!=\"")) .nil) (.cons (.term (.ident (str "term2")) (.mark (str "ne") .nil)) .nil))))))))) .nil) .nil))⟩

def rule_term4 : Rule := ⟨str "term4",
      (.one (.term (.ident (str "term3")) .nil) (.cons (.term (.rep0 (.paren (.one (.term (.string (str "\"&&\"")) (.mark (str "_mute") .nil)) (.cons (.term (.ident (str "term3")) (.mark (str "_code") (.mark (str "_unmute") (.mark (str "and") .nil)))) .nil)))) .nil) .nil))⟩

def rule_expr : Rule := ⟨str "expr",
      (.one (.term (.ident (str "term4")) .nil) (.cons (.term (.rep0 (.paren (.one (.term (.string (str "\"||\"")) (.mark (str "_mute") .nil)) (.cons (.term (.ident (str "term4")) (.mark (str "_code") (.mark (str "_unmute") (.mark (str "or") .nil)))) .nil)))) .nil) .nil))⟩

def rule_s : Rule := ⟨str "s",
      (.alt (.term (.paren (.one (.term (.ident (str "IDENT")) .nil) (.cons (.term (.char (str "'='")) .nil) (.cons .cut (.cons (.term (.ident (str "expr")) .nil) .nil))))) (.mark (str "assign") .nil)) .nil
      (.alt (.term (.paren (.one (.term (.ident (str "IDENT")) .nil) (.cons (.term (.char (str "','")) .nil) (.cons .cut .nil)))) (.mark (str "name") .nil)) (.cons (.term (.ident (str "IDENT")) (.mark (str "name") (.list (.char (str "','")) (.mark (str "ARITY") .nil)))) (.cons (.term (.char (str "'='")) .nil) (.cons (.term (.ident (str "expr")) (.mark (str "massign") .nil)) .nil)))
      (.alt (.term (.paren (.one (.term (.ident (str "IDENT")) .nil) (.cons (.term (.string (str "\"++\"")) .nil) .nil))) (.mark (str "inc") .nil)) .nil
      (.alt (.term (.paren (.one (.term (.ident (str "IDENT")) .nil) (.cons (.term (.string (str "\"--\"")) .nil) .nil))) (.mark (str "dec") .nil)) .nil
      (.alt (.term (.paren (.one (.term (.ident (str "IDENT")) .nil) (.cons (.term (.string (str "\"+=\"")) .nil) (.cons .cut (.cons (.term (.ident (str "expr")) .nil) .nil))))) (.mark (str "adda") .nil)) .nil
      (.alt (.term (.paren (.one (.term (.ident (str "IDENT")) .nil) (.cons (.term (.string (str "\"-=\"")) .nil) (.cons .cut (.cons (.term (.ident (str "expr")) .nil) .nil))))) (.mark (str "suba") .nil)) .nil
      (.alt (.term (.paren (.one (.term (.ident (str "IDENT")) .nil) (.cons (.term (.string (str "\"*=\"")) .nil) (.cons .cut (.cons (.term (.ident (str "expr")) .nil) .nil))))) (.mark (str "mula") .nil)) .nil
      (.alt (.term (.paren (.one (.term (.ident (str "IDENT")) .nil) (.cons (.term (.string (str "\"/=\"")) .nil) (.cons .cut (.cons (.term (.ident (str "expr")) .nil) .nil))))) (.mark (str "quoa") .nil)) .nil
      (.alt (.term (.paren (.one (.term (.ident (str "IDENT")) .nil) (.cons (.term (.string (str "\"%=\"")) .nil) (.cons .cut (.cons (.term (.ident (str "expr")) .nil) .nil))))) (.mark (str "moda") .nil)) .nil
      (.alt (.term (.string (str "\"return\"")) .nil) (.cons (.term (.rep01 (.ident (str "expr"))) (.mark (str "ARITY") (.mark (str "return") .nil))) .nil)
      (.alt (.term (.string (str "\"defer\"")) (.mark (str "_mute") .nil)) (.cons .cut (.cons (.term (.ident (str "expr")) (.mark (str "_code") (.mark (str "_unmute") (.mark (str "defer") .nil)))) .nil))
      (.one (.term (.ident (str "expr")) .nil) .nil))))))))))))⟩

def rule_doc : Rule := ⟨str "doc",
      (.one (.term (.ident (str "s")) .nil) (.cons (.term (.rep0 (.paren (.alt (.term (.char (str "';'")) (.mark (str "clear") .nil)) (.cons (.term (.ident (str "s")) .nil) .nil)
      (.one (.term (.char (str "';'")) (.mark (str "pushn") .nil)) .nil)))) .nil) .nil))⟩

def rule_ifbody : Rule := ⟨str "ifbody",
      (.one (.term (.char (str "'{'")) .nil) (.cons (.term (.rep01 (.ident (str "doc"))) (.mark (str "_code") .nil)) (.cons (.term (.char (str "'}'")) .nil) .nil)))⟩

def rule_swbody : Rule := ⟨str "swbody",
      (.one (.term (.rep0 (.paren (.one (.term (.string (str "\"case\"")) .nil) (.cons .cut (.cons (.term (.ident (str "expr")) (.mark (str "_code") .nil)) (.cons (.term (.char (str "':'")) .nil) (.cons (.term (.rep01 (.ident (str "doc"))) (.mark (str "_code") .nil)) .nil))))))) (.mark (str "_ARITY") .nil)) (.cons (.term (.rep01 (.paren (.one (.term (.string (str "\"default\"")) .nil) (.cons .cut (.cons (.term (.char (str "':'")) .nil) (.cons (.term (.rep01 (.ident (str "doc"))) (.mark (str "_code") .nil)) .nil)))))) (.mark (str "_ARITY") .nil)) .nil))⟩

def rule_fnbody : Rule := ⟨str "fnbody",
      (.one (.term (.char (str "'('")) .nil) (.cons (.term (.ident (str "IDENT")) (.mark (str "name") (.list0 (.char (str "','")) (.mark (str "ARITY") .nil)))) (.cons (.term (.rep01 (.string (str "\"...\""))) (.mark (str "ARITY") .nil)) (.cons (.term (.char (str "')'")) .nil) (.cons (.term (.char (str "'{'")) (.mark (str "_mute") .nil)) (.cons (.term (.rep01 (.ident (str "doc"))) (.mark (str "_code") .nil)) (.cons (.term (.char (str "'}'")) (.mark (str "_unmute") .nil)) .nil)))))))⟩

def rule_clsname : Rule := ⟨str "clsname",
      (.alt (.term (.char (str "'('")) .nil) (.cons (.term (.ident (str "IDENT")) (.mark (str "ref") .nil)) (.cons (.term (.char (str "')'")) .nil) .nil))
      (.one (.term (.ident (str "IDENT")) (.mark (str "ref") .nil)) .nil))⟩

def rule_newargs : Rule := ⟨str "newargs",
      (.one (.term (.rep01 (.paren (.one (.term (.char (str "'('")) .nil) (.cons (.term (.ident (str "expr")) (.list0 (.char (str "','")) (.mark (str "ARITY") .nil))) (.cons (.term (.char (str "')'")) .nil) .nil))))) (.mark (str "ARITY") .nil)) .nil)⟩

def rule_classb : Rule := ⟨str "classb",
      (.one (.term (.string (str "\"fn\"")) .nil) (.cons .cut (.cons (.term (.ident (str "IDENT")) (.mark (str "name") .nil)) (.cons (.term (.ident (str "fnbody")) .nil) (.cons (.term (.rep01 (.char (str "';'"))) (.mark (str "mfn") .nil)) .nil)))))⟩

def rule_atom : Rule := ⟨str "atom",
      (.alt (.term (.char (str "'('")) .nil) (.cons (.term (.ident (str "expr")) (.list0 (.char (str "','")) (.mark (str "ARITY") .nil))) (.cons (.term (.rep01 (.string (str "\"...\""))) (.mark (str "ARITY") .nil)) (.cons (.term (.rep01 (.char (str "','"))) .nil) (.cons (.term (.char (str "')'")) (.mark (str "call") .nil)) .nil))))
      (.alt (.term (.char (str "'.'")) .nil) (.cons (.term (.paren (.alt (.term (.ident (str "IDENT")) .nil) .nil
      (.alt (.term (.string (str "\"class\"")) .nil) .nil
      (.alt (.term (.string (str "\"new\"")) .nil) .nil
      (.alt (.term (.string (str "\"recover\"")) .nil) .nil
      (.one (.term (.string (str "\"main\"")) .nil) .nil)))))) (.mark (str "mref") .nil)) .nil)
      (.one (.term (.char (str "'['")) .nil) (.cons (.term (.rep01 (.ident (str "expr"))) (.mark (str "ARITY") .nil)) (.cons (.term (.rep01 (.char (str "':'"))) (.mark (str "ARITY") .nil)) (.cons (.term (.rep01 (.ident (str "expr"))) (.mark (str "ARITY") .nil)) (.cons (.term (.char (str "']'")) (.mark (str "index") .nil)) .nil)))))))⟩

def rule_factor : Rule := ⟨str "factor",
      (.alt (.term (.ident (str "INT")) (.mark (str "pushi") .nil)) .nil
      (.alt (.term (.ident (str "FLOAT")) (.mark (str "pushf") .nil)) .nil
      (.alt (.term (.ident (str "STRING")) (.mark (str "pushs") .nil)) .nil
      (.alt (.term (.ident (str "CHAR")) (.mark (str "pushc") .nil)) .nil
      (.alt (.term (.paren (.alt (.term (.ident (str "IDENT")) (.mark (str "ref") .nil)) .nil
      (.alt (.term (.char (str "'('")) .nil) (.cons .cut (.cons (.term (.ident (str "expr")) .nil) (.cons (.term (.char (str "')'")) .nil) .nil)))
      (.alt (.term (.string (str "\"fn\"")) .nil) (.cons .cut (.cons (.term (.ident (str "fnbody")) (.mark (str "fn") .nil)) .nil))
      (.one (.term (.char (str "'['")) .nil) (.cons (.term (.ident (str "expr")) (.list0 (.char (str "','")) (.mark (str "ARITY") .nil))) (.cons (.term (.rep01 (.char (str "','"))) .nil) (.cons (.term (.char (str "']'")) (.mark (str "slice") .nil)) .nil)))))))) .nil) (.cons (.term (.rep0 (.ident (str "atom"))) .nil) .nil)
      (.alt (.term (.string (str "\"if\"")) (.mark (str "_mute") .nil)) (.cons .cut (.cons (.term (.ident (str "expr")) (.mark (str "_code") .nil)) (.cons (.term (.ident (str "ifbody")) .nil) (.cons (.term (.rep0 (.paren (.one (.term (.string (str "\"elif\"")) .nil) (.cons (.term (.ident (str "expr")) (.mark (str "_code") .nil)) (.cons (.term (.ident (str "ifbody")) .nil) .nil))))) (.mark (str "_ARITY") .nil)) (.cons (.term (.rep01 (.paren (.one (.term (.string (str "\"else\"")) .nil) (.cons (.term (.ident (str "ifbody")) .nil) .nil)))) (.mark (str "_ARITY") (.mark (str "_unmute") (.mark (str "if") .nil)))) .nil)))))
      (.alt (.term (.string (str "\"switch\"")) (.mark (str "_mute") .nil)) (.cons .cut (.cons (.term (.rep01 (.paren (.one (.term (.not (.char (str "'{'"))) .nil) (.cons (.term (.ident (str "expr")) .nil) .nil)))) (.mark (str "_code") .nil)) (.cons (.term (.char (str "'{'")) .nil) (.cons (.term (.ident (str "swbody")) .nil) (.cons (.term (.char (str "'}'")) (.mark (str "_unmute") (.mark (str "switch") .nil))) .nil)))))
      (.alt (.term (.string (str "\"for\"")) (.mark (str "_mute") .nil)) (.cons .cut (.cons (.term (.paren (.one (.term (.not (.char (str "'{'"))) .nil) (.cons (.term (.ident (str "s")) .nil) .nil))) (.mark (str "_code") (.list0 (.char (str "';'")) (.mark (str "_ARITY") .nil)))) (.cons (.term (.char (str "'{'")) .nil) (.cons (.term (.rep01 (.ident (str "doc"))) (.mark (str "_code") .nil)) (.cons (.term (.char (str "'}'")) (.mark (str "_unmute") (.mark (str "for") .nil))) .nil)))))
      (.alt (.term (.string (str "\"new\"")) .nil) (.cons .cut (.cons (.term (.ident (str "clsname")) .nil) (.cons (.term (.ident (str "newargs")) (.mark (str "new") .nil)) .nil)))
      (.alt (.term (.string (str "\"class\"")) .nil) (.cons .cut (.cons (.term (.char (str "'{'")) .nil) (.cons (.term (.rep0 (.ident (str "classb"))) (.mark (str "ARITY") .nil)) (.cons (.term (.char (str "'}'")) (.mark (str "class") .nil)) .nil))))
      (.alt (.term (.string (str "\"recover\"")) .nil) (.cons (.term (.char (str "'('")) .nil) (.cons (.term (.char (str "')'")) (.mark (str "recover") .nil)) .nil))
      (.alt (.term (.string (str "\"main\"")) .nil) (.cons (.term (.char (str "'{'")) (.mark (str "_mute") .nil)) (.cons (.term (.rep01 (.ident (str "doc"))) (.mark (str "_code") .nil)) (.cons (.term (.char (str "'}'")) (.mark (str "_unmute") (.mark (str "main") .nil))) .nil)))
      (.alt (.term (.char (str "'{'")) .nil) (.cons .cut (.cons (.term (.paren (.one (.term (.ident (str "expr")) .nil) (.cons (.term (.char (str "':'")) .nil) (.cons (.term (.ident (str "expr")) .nil) .nil)))) (.list0 (.char (str "','")) (.mark (str "ARITY") .nil))) (.cons (.term (.rep01 (.char (str "','"))) .nil) (.cons (.term (.char (str "'}'")) (.mark (str "map") .nil)) .nil))))
      (.alt (.term (.char (str "'!'")) .nil) (.cons (.term (.ident (str "factor")) (.mark (str "not") .nil)) .nil)
      (.alt (.term (.char (str "'-'")) .nil) (.cons (.term (.ident (str "factor")) (.mark (str "neg") .nil)) .nil)
      (.one (.term (.char (str "'+'")) .nil) (.cons (.term (.ident (str "factor")) .nil) .nil)))))))))))))))))⟩

/-- The rules of the grammar of qlang. -/
def rules : List Rule := [rule_term1, rule_term2, rule_term3, rule_term4, rule_expr, rule_s, rule_doc, rule_ifbody, rule_swbody, rule_fnbody, rule_clsname, rule_newargs, rule_classb, rule_atom, rule_factor]

end Tpl.Qlang
