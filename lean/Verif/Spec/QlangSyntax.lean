import Verif.Model.Scanner

/-!
The programs of qlang as syntax trees: what can be written, in which order, and what binds
stronger than what.  Independent of the grammar in /repo and of how it is compiled.

The tokens are kept in the tree, so that a tree and its text determine each other
(`Tm.toks`).
-/
namespace Tpl.Qlang.Src

/-- A token of a given kind. -/
structure Tk (k : Nat) where
  tok : Token
  ok : tok.kind = k

/-- The keywords of qlang are numbered in the order in which they appear in its grammar. -/
abbrev kReturn := USER_TOKEN_BEGIN
abbrev kDefer := USER_TOKEN_BEGIN + 1
abbrev kCase := USER_TOKEN_BEGIN + 2
abbrev kDefault := USER_TOKEN_BEGIN + 3
abbrev kFn := USER_TOKEN_BEGIN + 4
abbrev kClass := USER_TOKEN_BEGIN + 5
abbrev kNew := USER_TOKEN_BEGIN + 6
abbrev kRecover := USER_TOKEN_BEGIN + 7
abbrev kMain := USER_TOKEN_BEGIN + 8
abbrev kIf := USER_TOKEN_BEGIN + 9
abbrev kElif := USER_TOKEN_BEGIN + 10
abbrev kElse := USER_TOKEN_BEGIN + 11
abbrev kSwitch := USER_TOKEN_BEGIN + 12
abbrev kFor := USER_TOKEN_BEGIN + 13

/-- The binary operators that take two values, by precedence: those of level 0 bind
strongest. -/
inductive BOp : Nat → Type
  | mul : BOp 0
  | quo : BOp 0
  | mod : BOp 0
  | add : BOp 1
  | sub : BOp 1
  | lt : BOp 2
  | gt : BOp 2
  | eq : BOp 2
  | le : BOp 2
  | ge : BOp 2
  | ne : BOp 2

def BOp.kind {l : Nat} : BOp l → Nat
  | .mul => MUL | .quo => QUO | .mod => REM
  | .add => ADD | .sub => SUB
  | .lt => LT | .gt => GT | .eq => EQ | .le => LE | .ge => GE | .ne => NE

/-- The assignments with an operator. -/
inductive AOp where
  | add | sub | mul | quo | mod

def AOp.kind : AOp → Nat
  | .add => ADD_ASSIGN | .sub => SUB_ASSIGN | .mul => MUL_ASSIGN | .quo => QUO_ASSIGN | .mod => REM_ASSIGN

/-- Names behind the first one, each with its comma. -/
abbrev Names := List (Tk COMMA × Tk IDENT)

def namesToks : Names → List Token
  | [] => []
  | (c, x) :: more => c.tok :: x.tok :: namesToks more

/-- The sorts of trees. -/
inductive Cat where
  /-- expressions whose operators have levels below `l`: 0 is a factor, 5 any expression;
  level 3 is `&&`, level 4 is `||` -/
  | term (l : Nat)
  /-- operators of level `l` with their right operands -/
  | tail (l : Nat)
  /-- what can be called, indexed and selected from, and these operations -/
  | prim | atom | atoms
  | optExpr | args | moreArgs | pairs | morePairs
  /-- statements, sequences of statements, and what follows the first one -/
  | stmt | doc | docTail | optDoc
  | elifs | else_ | cases | default | parts | moreParts
  | fnBody | methods | clsName | newArgs

/-- Trees.  Punctuation is written out. -/
inductive Tm : Cat → Type
  -- expressions
  | chain {l} (h : l < 5) (first : Tm (.term l)) (more : Tm (.tail l)) : Tm (.term (l + 1))
  | noOp {l} : Tm (.tail l)
  | bin {l} (o : BOp l) (op : Tk o.kind) (right : Tm (.term l)) (more : Tm (.tail l)) : Tm (.tail l)
  | and (op : Tk LAND) (right : Tm (.term 3)) (more : Tm (.tail 3)) : Tm (.tail 3)
  | or (op : Tk LOR) (right : Tm (.term 4)) (more : Tm (.tail 4)) : Tm (.tail 4)
  -- factors
  | int (lit : Tk INT) : Tm (.term 0)
  | float (lit : Tk FLOAT) : Tm (.term 0)
  | string (lit : Tk STRING) : Tm (.term 0)
  | char (lit : Tk CHAR) : Tm (.term 0)
  | post (e : Tm .prim) (ops : Tm .atoms) : Tm (.term 0)
  | if_ (kw : Tk kIf) (cond : Tm (.term 5)) (lb : Tk LBRACE) (body : Tm .optDoc) (rb : Tk RBRACE) (elifs : Tm .elifs)
      (els : Tm .else_) : Tm (.term 0)
  | switch (kw : Tk kSwitch) (on : Tm .optExpr) (lb : Tk LBRACE) (cases : Tm .cases) (dflt : Tm .default) (rb : Tk RBRACE) :
      Tm (.term 0)
  | for_ (kw : Tk kFor) (parts : Tm .parts) (lb : Tk LBRACE) (body : Tm .optDoc) (rb : Tk RBRACE) : Tm (.term 0)
  | new (kw : Tk kNew) (cls : Tm .clsName) (args : Tm .newArgs) : Tm (.term 0)
  | class_ (kw : Tk kClass) (lb : Tk LBRACE) (methods : Tm .methods) (rb : Tk RBRACE) : Tm (.term 0)
  | recover (kw : Tk kRecover) (lp : Tk LPAREN) (rp : Tk RPAREN) : Tm (.term 0)
  | main (kw : Tk kMain) (lb : Tk LBRACE) (body : Tm .optDoc) (rb : Tk RBRACE) : Tm (.term 0)
  | map (lb : Tk LBRACE) (pairs : Tm .pairs) (comma : Option (Tk COMMA)) (rb : Tk RBRACE) : Tm (.term 0)
  | not (op : Tk NOT) (e : Tm (.term 0)) : Tm (.term 0)
  | neg (op : Tk SUB) (e : Tm (.term 0)) : Tm (.term 0)
  | pos (op : Tk ADD) (e : Tm (.term 0)) : Tm (.term 0)
  -- what operations can be appended to
  | name (x : Tk IDENT) : Tm .prim
  | paren (lp : Tk LPAREN) (e : Tm (.term 5)) (rp : Tk RPAREN) : Tm .prim
  | fn (kw : Tk kFn) (f : Tm .fnBody) : Tm .prim
  | slice (lb : Tk LBRACK) (elems : Tm .args) (comma : Option (Tk COMMA)) (rb : Tk RBRACK) : Tm .prim
  | noAtom : Tm .atoms
  | atom (a : Tm .atom) (more : Tm .atoms) : Tm .atoms
  | call (lp : Tk LPAREN) (args : Tm .args) (spread : Option (Tk ELLIPSIS)) (comma : Option (Tk COMMA)) (rp : Tk RPAREN) :
      Tm .atom
  | member (dot : Tk PERIOD) (x : Token) (h : x.kind ∈ [IDENT, kClass, kNew, kRecover, kMain]) : Tm .atom
  | index (lb : Tk LBRACK) (i : Tm (.term 5)) (rb : Tk RBRACK) : Tm .atom
  | range (lb : Tk LBRACK) (i : Tm .optExpr) (colon : Tk COLON) (j : Tm .optExpr) (rb : Tk RBRACK) : Tm .atom
  /-- accepted, but it has no meaning -/
  | noIndex (lb : Tk LBRACK) (rb : Tk RBRACK) : Tm .atom
  /-- the grammar also takes two indices without a colon -/
  | index2 (lb : Tk LBRACK) (i : Tm (.term 5)) (j : Tm (.term 5)) (rb : Tk RBRACK) : Tm .atom
  -- lists
  | noExpr : Tm .optExpr
  | expr (e : Tm (.term 5)) : Tm .optExpr
  | noArgs : Tm .args
  | args (e : Tm (.term 5)) (more : Tm .moreArgs) : Tm .args
  | lastArg : Tm .moreArgs
  | moreArgs (comma : Tk COMMA) (e : Tm (.term 5)) (more : Tm .moreArgs) : Tm .moreArgs
  | noPairs : Tm .pairs
  | pairs (k : Tm (.term 5)) (colon : Tk COLON) (v : Tm (.term 5)) (more : Tm .morePairs) : Tm .pairs
  | lastPair : Tm .morePairs
  | morePairs (comma : Tk COMMA) (k : Tm (.term 5)) (colon : Tk COLON) (v : Tm (.term 5)) (more : Tm .morePairs) : Tm .morePairs
  -- statements
  | assign (x : Tk IDENT) (op : Tk ASSIGN) (e : Tm (.term 5)) : Tm .stmt
  | multi (x : Tk IDENT) (comma : Tk COMMA) (y : Tk IDENT) (more : Names) (op : Tk ASSIGN) (e : Tm (.term 5)) : Tm .stmt
  | inc (x : Tk IDENT) (op : Tk INC) : Tm .stmt
  | dec (x : Tk IDENT) (op : Tk DEC) : Tm .stmt
  | opAssign (o : AOp) (x : Tk IDENT) (op : Tk o.kind) (e : Tm (.term 5)) : Tm .stmt
  | return_ (kw : Tk kReturn) (e : Tm .optExpr) : Tm .stmt
  | defer (kw : Tk kDefer) (e : Tm (.term 5)) : Tm .stmt
  | eval (e : Tm (.term 5)) : Tm .stmt
  | doc (s : Tm .stmt) (more : Tm .docTail) : Tm .doc
  | endDoc : Tm .docTail
  | next (semi : Tk SEMICOLON) (s : Tm .stmt) (more : Tm .docTail) : Tm .docTail
  | semi (semi : Tk SEMICOLON) (more : Tm .docTail) : Tm .docTail
  | noDoc : Tm .optDoc
  | someDoc (d : Tm .doc) : Tm .optDoc
  -- control
  | noElif : Tm .elifs
  | elif (kw : Tk kElif) (cond : Tm (.term 5)) (lb : Tk LBRACE) (body : Tm .optDoc) (rb : Tk RBRACE) (more : Tm .elifs) : Tm .elifs
  | noElse : Tm .else_
  | else_ (kw : Tk kElse) (lb : Tk LBRACE) (body : Tm .optDoc) (rb : Tk RBRACE) : Tm .else_
  | noCase : Tm .cases
  | case (kw : Tk kCase) (e : Tm (.term 5)) (colon : Tk COLON) (body : Tm .optDoc) (more : Tm .cases) : Tm .cases
  | noDefault : Tm .default
  | default (kw : Tk kDefault) (colon : Tk COLON) (body : Tm .optDoc) : Tm .default
  | noParts : Tm .parts
  | parts (s : Tm .stmt) (more : Tm .moreParts) : Tm .parts
  | lastPart : Tm .moreParts
  | moreParts (semi : Tk SEMICOLON) (s : Tm .stmt) (more : Tm .moreParts) : Tm .moreParts
  -- functions and classes
  | fnBody (lp : Tk LPAREN) (params : Option (Tk IDENT × Names)) (spread : Option (Tk ELLIPSIS)) (rp : Tk RPAREN)
      (lb : Tk LBRACE) (body : Tm .optDoc) (rb : Tk RBRACE) : Tm .fnBody
  | noMethod : Tm .methods
  | method (kw : Tk kFn) (x : Tk IDENT) (f : Tm .fnBody) (semi : Option (Tk SEMICOLON)) (more : Tm .methods) : Tm .methods
  | clsName (x : Tk IDENT) : Tm .clsName
  | clsParen (lp : Tk LPAREN) (x : Tk IDENT) (rp : Tk RPAREN) : Tm .clsName
  | noNewArgs : Tm .newArgs
  | newArgs (lp : Tk LPAREN) (args : Tm .args) (rp : Tk RPAREN) : Tm .newArgs

/-- An optional token. -/
def optTok {k : Nat} : Option (Tk k) → List Token
  | none => []
  | some t => [t.tok]

def paramToks : Option (Tk IDENT × Names) → List Token
  | none => []
  | some (x, more) => x.tok :: namesToks more

/-- The tokens of a tree. -/
def Tm.toks : {c : Cat} → Tm c → List Token
  | _, .chain _ a b => a.toks ++ b.toks
  | _, .noOp => []
  | _, .bin _ op b more => op.tok :: (b.toks ++ more.toks)
  | _, .and op b more => op.tok :: (b.toks ++ more.toks)
  | _, .or op b more => op.tok :: (b.toks ++ more.toks)
  | _, .int t => [t.tok]
  | _, .float t => [t.tok]
  | _, .string t => [t.tok]
  | _, .char t => [t.tok]
  | _, .post e ops => e.toks ++ ops.toks
  | _, .if_ kw c lb b rb es el => kw.tok :: (c.toks ++ (lb.tok :: (b.toks ++ (rb.tok :: (es.toks ++ el.toks)))))
  | _, .switch kw on lb cs d rb => kw.tok :: (on.toks ++ (lb.tok :: (cs.toks ++ (d.toks ++ [rb.tok]))))
  | _, .for_ kw ps lb b rb => kw.tok :: (ps.toks ++ (lb.tok :: (b.toks ++ [rb.tok])))
  | _, .new kw c as => kw.tok :: (c.toks ++ as.toks)
  | _, .class_ kw lb ms rb => kw.tok :: lb.tok :: (ms.toks ++ [rb.tok])
  | _, .recover kw lp rp => [kw.tok, lp.tok, rp.tok]
  | _, .main kw lb b rb => kw.tok :: lb.tok :: (b.toks ++ [rb.tok])
  | _, .map lb ps c rb => lb.tok :: (ps.toks ++ (optTok c ++ [rb.tok]))
  | _, .not op e => op.tok :: e.toks
  | _, .neg op e => op.tok :: e.toks
  | _, .pos op e => op.tok :: e.toks
  | _, .name x => [x.tok]
  | _, .paren lp e rp => lp.tok :: (e.toks ++ [rp.tok])
  | _, .fn kw f => kw.tok :: f.toks
  | _, .slice lb es c rb => lb.tok :: (es.toks ++ (optTok c ++ [rb.tok]))
  | _, .noAtom => []
  | _, .atom a more => a.toks ++ more.toks
  | _, .call lp as s c rp => lp.tok :: (as.toks ++ (optTok s ++ (optTok c ++ [rp.tok])))
  | _, .member d x _ => [d.tok, x]
  | _, .index lb i rb => lb.tok :: (i.toks ++ [rb.tok])
  | _, .range lb i c j rb => lb.tok :: (i.toks ++ (c.tok :: (j.toks ++ [rb.tok])))
  | _, .noIndex lb rb => [lb.tok, rb.tok]
  | _, .index2 lb i j rb => lb.tok :: (i.toks ++ (j.toks ++ [rb.tok]))
  | _, .noExpr => []
  | _, .expr e => e.toks
  | _, .noArgs => []
  | _, .args e more => e.toks ++ more.toks
  | _, .lastArg => []
  | _, .moreArgs c e more => c.tok :: (e.toks ++ more.toks)
  | _, .noPairs => []
  | _, .pairs k c v more => k.toks ++ (c.tok :: (v.toks ++ more.toks))
  | _, .lastPair => []
  | _, .morePairs c k d v more => c.tok :: (k.toks ++ (d.tok :: (v.toks ++ more.toks)))
  | _, .assign x op e => x.tok :: op.tok :: e.toks
  | _, .multi x c y more op e => x.tok :: c.tok :: y.tok :: (namesToks more ++ (op.tok :: e.toks))
  | _, .inc x op => [x.tok, op.tok]
  | _, .dec x op => [x.tok, op.tok]
  | _, .opAssign _ x op e => x.tok :: op.tok :: e.toks
  | _, .return_ kw e => kw.tok :: e.toks
  | _, .defer kw e => kw.tok :: e.toks
  | _, .eval e => e.toks
  | _, .doc s more => s.toks ++ more.toks
  | _, .endDoc => []
  | _, .next sc s more => sc.tok :: (s.toks ++ more.toks)
  | _, .semi sc more => sc.tok :: more.toks
  | _, .noDoc => []
  | _, .someDoc d => d.toks
  | _, .noElif => []
  | _, .elif kw c lb b rb more => kw.tok :: (c.toks ++ (lb.tok :: (b.toks ++ (rb.tok :: more.toks))))
  | _, .noElse => []
  | _, .else_ kw lb b rb => kw.tok :: lb.tok :: (b.toks ++ [rb.tok])
  | _, .noCase => []
  | _, .case kw e c b more => kw.tok :: (e.toks ++ (c.tok :: (b.toks ++ more.toks)))
  | _, .noDefault => []
  | _, .default kw c b => kw.tok :: c.tok :: b.toks
  | _, .noParts => []
  | _, .parts s more => s.toks ++ more.toks
  | _, .lastPart => []
  | _, .moreParts sc s more => sc.tok :: (s.toks ++ more.toks)
  | _, .fnBody lp ps s rp lb b rb => lp.tok :: (paramToks ps ++ (optTok s ++ (rp.tok :: lb.tok :: (b.toks ++ [rb.tok]))))
  | _, .noMethod => []
  | _, .method kw x f s more => kw.tok :: x.tok :: (f.toks ++ (optTok s ++ more.toks))
  | _, .clsName x => [x.tok]
  | _, .clsParen lp x rp => [lp.tok, x.tok, rp.tok]
  | _, .noNewArgs => []
  | _, .newArgs lp as rp => lp.tok :: (as.toks ++ [rp.tok])

/-- Does the tree begin with `{`? -/
def Braced (toks : List Token) : Prop := ∃ t more, toks = t :: more ∧ t.kind = LBRACE

/-- A `return` without value: in the head of a `for` the body would be taken for its value. -/
def Tm.Bare : {c : Cat} → Tm c → Prop
  | _, .return_ _ .noExpr => True
  | _, _ => False

/-- The places where a tree cannot be written down as it is: the head of a `switch` or `for`
must not begin with `{`, because that begins the body, and the last part of the head of a
`for` is not a `return` without value.  Trees with two indices are left out: what follows the
first may be taken for its continuation. -/
def Tm.Ok : {c : Cat} → Tm c → Prop
  | _, .chain _ a b => a.Ok ∧ b.Ok
  | _, .bin _ _ b more => b.Ok ∧ more.Ok
  | _, .and _ b more => b.Ok ∧ more.Ok
  | _, .or _ b more => b.Ok ∧ more.Ok
  | _, .post e ops => e.Ok ∧ ops.Ok
  | _, .if_ _ c _ b _ es el => c.Ok ∧ b.Ok ∧ es.Ok ∧ el.Ok
  | _, .switch _ on _ cs d _ => ¬ Braced on.toks ∧ on.Ok ∧ cs.Ok ∧ d.Ok
  | _, .for_ _ ps _ b _ => ps.Ok ∧ b.Ok
  | _, .new _ c as => c.Ok ∧ as.Ok
  | _, .class_ _ _ ms _ => ms.Ok
  | _, .main _ _ b _ => b.Ok
  | _, .map _ ps _ _ => ps.Ok
  | _, .not _ e => e.Ok
  | _, .neg _ e => e.Ok
  | _, .pos _ e => e.Ok
  | _, .paren _ e _ => e.Ok
  | _, .fn _ f => f.Ok
  | _, .slice _ es _ _ => es.Ok
  | _, .atom a more => a.Ok ∧ more.Ok
  | _, .call _ as _ _ _ => as.Ok
  | _, .index _ i _ => i.Ok
  | _, .range _ i _ j _ => i.Ok ∧ j.Ok
  | _, .index2 .. => False
  | _, .expr e => e.Ok
  | _, .args e more => e.Ok ∧ more.Ok
  | _, .moreArgs _ e more => e.Ok ∧ more.Ok
  | _, .pairs k _ v more => k.Ok ∧ v.Ok ∧ more.Ok
  | _, .morePairs _ k _ v more => k.Ok ∧ v.Ok ∧ more.Ok
  | _, .assign _ _ e => e.Ok
  | _, .multi _ _ _ _ _ e => e.Ok
  | _, .opAssign _ _ _ e => e.Ok
  | _, .return_ _ e => e.Ok
  | _, .defer _ e => e.Ok
  | _, .eval e => e.Ok
  | _, .doc s more => s.Ok ∧ more.Ok
  | _, .next _ s more => s.Ok ∧ more.Ok
  | _, .semi _ more => more.Ok
  | _, .someDoc d => d.Ok
  | _, .elif _ c _ b _ more => c.Ok ∧ b.Ok ∧ more.Ok
  | _, .else_ _ _ b _ => b.Ok
  | _, .case _ e _ b more => e.Ok ∧ b.Ok ∧ more.Ok
  | _, .default _ _ b => b.Ok
  | _, .parts s more => ¬ Braced s.toks ∧ (more.toks = [] → ¬ s.Bare) ∧ s.Ok ∧ more.Ok
  | _, .moreParts _ s more => ¬ Braced s.toks ∧ (more.toks = [] → ¬ s.Bare) ∧ s.Ok ∧ more.Ok
  | _, .fnBody _ _ _ _ _ b _ => b.Ok
  | _, .method _ _ f _ more => f.Ok ∧ more.Ok
  | _, .newArgs _ as _ => as.Ok
  | _, _ => True

/-- The same, with two indices allowed. -/
def Tm.Loose : {c : Cat} → Tm c → Prop
  | _, .chain _ a b => a.Loose ∧ b.Loose
  | _, .bin _ _ b more => b.Loose ∧ more.Loose
  | _, .and _ b more => b.Loose ∧ more.Loose
  | _, .or _ b more => b.Loose ∧ more.Loose
  | _, .post e ops => e.Loose ∧ ops.Loose
  | _, .if_ _ c _ b _ es el => c.Loose ∧ b.Loose ∧ es.Loose ∧ el.Loose
  | _, .switch _ on _ cs d _ => ¬ Braced on.toks ∧ on.Loose ∧ cs.Loose ∧ d.Loose
  | _, .for_ _ ps _ b _ => ps.Loose ∧ b.Loose
  | _, .new _ c as => c.Loose ∧ as.Loose
  | _, .class_ _ _ ms _ => ms.Loose
  | _, .main _ _ b _ => b.Loose
  | _, .map _ ps _ _ => ps.Loose
  | _, .not _ e => e.Loose
  | _, .neg _ e => e.Loose
  | _, .pos _ e => e.Loose
  | _, .paren _ e _ => e.Loose
  | _, .fn _ f => f.Loose
  | _, .slice _ es _ _ => es.Loose
  | _, .atom a more => a.Loose ∧ more.Loose
  | _, .call _ as _ _ _ => as.Loose
  | _, .index _ i _ => i.Loose
  | _, .range _ i _ j _ => i.Loose ∧ j.Loose
  | _, .index2 _ i j _ => i.Loose ∧ j.Loose
  | _, .expr e => e.Loose
  | _, .args e more => e.Loose ∧ more.Loose
  | _, .moreArgs _ e more => e.Loose ∧ more.Loose
  | _, .pairs k _ v more => k.Loose ∧ v.Loose ∧ more.Loose
  | _, .morePairs _ k _ v more => k.Loose ∧ v.Loose ∧ more.Loose
  | _, .assign _ _ e => e.Loose
  | _, .multi _ _ _ _ _ e => e.Loose
  | _, .opAssign _ _ _ e => e.Loose
  | _, .return_ _ e => e.Loose
  | _, .defer _ e => e.Loose
  | _, .eval e => e.Loose
  | _, .doc s more => s.Loose ∧ more.Loose
  | _, .next _ s more => s.Loose ∧ more.Loose
  | _, .semi _ more => more.Loose
  | _, .someDoc d => d.Loose
  | _, .elif _ c _ b _ more => c.Loose ∧ b.Loose ∧ more.Loose
  | _, .else_ _ _ b _ => b.Loose
  | _, .case _ e _ b more => e.Loose ∧ b.Loose ∧ more.Loose
  | _, .default _ _ b => b.Loose
  | _, .parts s more => ¬ Braced s.toks ∧ (more.toks = [] → ¬ s.Bare) ∧ s.Loose ∧ more.Loose
  | _, .moreParts _ s more => ¬ Braced s.toks ∧ (more.toks = [] → ¬ s.Bare) ∧ s.Loose ∧ more.Loose
  | _, .fnBody _ _ _ _ _ b _ => b.Loose
  | _, .method _ _ f _ more => f.Loose ∧ more.Loose
  | _, .newArgs _ as _ => as.Loose
  | _, _ => True

end Tpl.Qlang.Src
