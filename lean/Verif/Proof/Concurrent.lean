import Verif.Model.Concurrent
import Verif.Spec.Concurrent
import Verif.Proof.Trace
import Verif.Props.Scanner
import Verif.Props.Matcher

/-! Proofs for C118. -/
namespace Tpl
open Spec
variable {A σ V P R S X : Type} {U : Uni}

/-! ### Programs alone -/

theorem Proc.alone_bind (p : Proc R) (k : R → Proc S) (m : Mem) :
    (p.bind k).alone U m = (k (p.alone U m).1).alone U (p.alone U m).2 := by
  induction p generalizing m with
  | done r => rfl
  | setLen j id n p ih => exact ih _
  | getLen j id p ih => exact ih _ _
  | init j src mode p ih => exact ih _
  | scan j p ih => exact ih _ _ _

theorem Proc.alone_andThen (p : Proc (Option R)) (k : R → Proc (Option S)) (m : Mem) :
    (p.andThen k).alone U m = match p.alone U m with
      | (none, m) => (none, m)
      | (some r, m) => (k r).alone U m := by
  unfold Proc.andThen
  rw [Proc.alone_bind]
  rcases p.alone U m with ⟨_ | r, m'⟩ <;> rfl

/-! ### Match alone is `matchG` -/

/-- With the `len` fields. -/
def PRes.at_ (len : Nat → Nat) : PRes A σ P → Res A σ P
  | .ok n u => .ok n ⟨len, u⟩
  | .fail n e u => .fail n e ⟨len, u⟩
  | .panic p u => .panic p ⟨len, u⟩

def PLoop.at_ (len : Nat → Nat) : PLoop A σ P → LoopRes A σ P
  | .done n k u => .done n k ⟨len, u⟩
  | .panic p u => .panic p ⟨len, u⟩

/-- The program does what the function does, and leaves the scanners alone. -/
def Behaves {X Y : Type} (U : Uni) (j : Nat) (at_ : (Nat → Nat) → X → Y) (p : Proc (Option X)) (m : Mem) (r : Option Y) : Prop :=
  r = (p.alone U m).1.map (at_ ((p.alone U m).2.len j)) ∧ (p.alone U m).2.scanner = m.scanner

theorem Behaves.done {X Y : Type} {j : Nat} {at_ : (Nat → Nat) → X → Y} {m : Mem} (x : Option X) : Behaves U j at_ (.done x) m (x.map (at_ (m.len j))) := ⟨rfl, rfl⟩

theorem Behaves.andThen {X Y X' Y' : Type} {j : Nat} {at_ : (Nat → Nat) → X → Y} {at' : (Nat → Nat) → X' → Y'} {p : Proc (Option X)} {k : X → Proc (Option X')}
    {m : Mem} {r : Option Y} {F : Y → Option Y'} (h : Behaves U j at_ p m r)
    (hk : ∀ x m', m'.scanner = m.scanner → Behaves U j at' (k x) m' (F (at_ (m'.len j) x))) :
    Behaves U j at' (p.andThen k) m (r.bind F) := by
  obtain ⟨h1, h2⟩ := h
  unfold Behaves
  rw [Proc.alone_andThen]
  generalize p.alone U m = y at h1 h2
  obtain ⟨x, m'⟩ := y
  subst h1
  cases x with
  | none => exact ⟨rfl, h2⟩
  | some x =>
    obtain ⟨h3, h4⟩ := hk x m' h2
    exact ⟨h3, h4.trans h2⟩

/-- The program of a matcher. -/
def BehavesMat (U : Uni) (j : Nat) (pm : PMat A σ P) (m : Mat A σ P) : Prop :=
  ∀ g src u mem, Behaves U j PRes.at_ (pm g src u) mem (m g src ⟨mem.len j, u⟩)

theorem and_same {j : Nat} {pm : PMat A σ P} {m : Mat A σ P} (h : BehavesMat U j pm m) (all : Gr A) (src : List Token) :
    ∀ gs ff n u mem, Behaves U j PRes.at_ (andLoopP pm all src gs ff n u) mem (andLoop m all src gs ff n ⟨mem.len j, u⟩)
  | [], ff, n, u, mem => Behaves.done (some _)
  | g :: gs, ff, n, u, mem => by
    by_cases hn : g = .nil
    · subst hn
      exact and_same h all src gs true n u mem
    · have e1 : andLoopP pm all src (g :: gs) ff n u = if n ≤ src.length then
          (pm g (src.drop n) u).andThen fun r => match r with
            | .panic p u => .done (some (.panic p u))
            | .fail n1 err1 u =>
              if ff then .done (some (.panic (.err (.mismatch all src (some err1) (n + n1))) u))
              else .done (some (.fail (n + n1) err1 u))
            | .ok n1 u => andLoopP pm all src gs ff (n + n1) u
          else .done (some (.panic .slice u)) := by
        cases g <;> first | exact absurd rfl hn | rfl
      have e2 : ∀ s, andLoop m all src (g :: gs) ff n s = if n ≤ src.length then
          (m g (src.drop n) s).bind fun r => match r with
            | .panic p s => some (.panic p s)
            | .fail n1 err1 s =>
              if ff then some (.panic (.err (.mismatch all src (some err1) (n + n1))) s)
              else some (.fail (n + n1) err1 s)
            | .ok n1 s => andLoop m all src gs ff (n + n1) s
          else some (.panic .slice s) := by
        intro s
        have : andLoop m all src (g :: gs) ff n s = if n ≤ src.length then
            match m g (src.drop n) s with
            | none => none
            | some (.panic p s) => some (.panic p s)
            | some (.fail n1 err1 s) =>
              if ff then some (.panic (.err (.mismatch all src (some err1) (n + n1))) s)
              else some (.fail (n + n1) err1 s)
            | some (.ok n1 s) => andLoop m all src gs ff (n + n1) s
            else some (.panic .slice s) := by
          cases g <;> first | exact absurd rfl hn | rfl
        rw [this]
        split
        · rcases m g (src.drop n) s with _ | _ | _ | _ <;> rfl
        · rfl
      rw [e1, e2]
      by_cases hl : n ≤ src.length
      · rw [if_pos hl, if_pos hl]
        refine (h g (src.drop n) u mem).andThen fun x m' _ => ?_
        cases x with
        | ok n1 u => exact and_same h all src gs ff (n + n1) u m'
        | fail n1 e u =>
          dsimp only [PRes.at_]
          cases ff
          · exact Behaves.done (some _)
          · exact Behaves.done (some _)
        | panic p u => exact Behaves.done (some _)
      · rw [if_neg hl, if_neg hl]
        exact Behaves.done (some _)

theorem or_same {j : Nat} {pm : PMat A σ P} {m : Mat A σ P} (h : BehavesMat U j pm m) (all : Gr A) (src : List Token) :
    ∀ gs nMax errMax multi u mem, Behaves U j PRes.at_ (orLoopP pm all src gs nMax errMax multi u) mem (orLoop m all src gs nMax errMax multi ⟨mem.len j, u⟩)
  | [], nMax, errMax, multi, u, mem => by
    cases multi
    · cases errMax
      · exact Behaves.done (some _)
      · exact Behaves.done (some _)
    · exact Behaves.done (some _)
  | g :: gs, nMax, errMax, multi, u, mem => by
    have e2 : ∀ s, orLoop m all src (g :: gs) nMax errMax multi s = (m g src s).bind fun r => match r with
        | .panic p s => some (.panic p s)
        | .ok n s => some (.ok n s)
        | .fail n e s =>
          if n ≥ nMax then
            if n = nMax then orLoop m all src gs nMax errMax true s
            else orLoop m all src gs n (some e) false s
          else orLoop m all src gs nMax errMax multi s := by
      intro s
      rw [orLoop]
      rcases m g src s with _ | _ | _ | _ <;> rfl
    rw [orLoopP, e2]
    refine (h g src u mem).andThen fun x m' _ => ?_
    cases x with
    | ok n1 u => exact Behaves.done (some _)
    | panic p u => exact Behaves.done (some _)
    | fail n e u =>
      dsimp only [PRes.at_]
      split
      · split
        · exact or_same h all src gs _ _ _ u m'
        · exact or_same h all src gs _ _ _ u m'
      · exact or_same h all src gs _ _ _ u m'

theorem rep_same {j : Nat} {pm : PMat A σ P} {m : Mat A σ P} (h : BehavesMat U j pm m) (g : Gr A) :
    ∀ f src n k u mem, Behaves U j PLoop.at_ (repLoopP pm g f src n k u) mem (repLoop m g f src n k ⟨mem.len j, u⟩)
  | 0, src, n, k, u, mem => Behaves.done none
  | f + 1, src, n, k, u, mem => by
    have e2 : ∀ s, repLoop m g (f + 1) src n k s = (m g src s).bind fun r => match r with
        | .panic p s => some (.panic p s)
        | .fail _ _ s => some (.done n k s)
        | .ok n1 s =>
          if n1 ≤ src.length then repLoop m g f (src.drop n1) (n + n1) (k + 1) s
          else some (.panic .slice s) := by
      intro s
      rw [repLoop]
      rcases m g src s with _ | _ | _ | _ <;> rfl
    rw [repLoopP, e2]
    refine (h g src u mem).andThen fun x m' _ => ?_
    cases x with
    | panic p u => exact Behaves.done (some _)
    | fail n1 e u => exact Behaves.done (some _)
    | ok n1 u =>
      dsimp only [PRes.at_]
      split
      · exact rep_same h g f _ _ _ u m'
      · exact Behaves.done (some _)

theorem lenCell_len (g : Gr A) (cells : Nat → Nat) : g.len cells = match g.lenCell with
    | .inl n => n
    | .inr id => cells id := by
  induction g using Gr.lenCell.induct <;> simp_all [Gr.len, Gr.lenCell]

theorem Behaves.setLen {X : Type} {j id n : Nat} {m : Mem} (x : X) (at_ : (Nat → Nat) → X → Res A σ P) :
    Behaves U j at_ (.setLen j id n (.done (some x))) m (some (at_ (fun c => if c = id then n else m.len j c) x)) := by
  refine ⟨?_, rfl⟩
  simp [Proc.alone, Mem.setLen]

theorem step_same {j : Nat} {env : Env A} {c : Calls A σ V P} {reads : A → Bool}
    (hr : ∀ a, reads a = false → ∀ g toks l l' u, c.act a g toks l u = c.act a g toks l' u)
    {pm : PMat A σ P} {m : Mat A σ P} (h : BehavesMat U j pm m) (f : Nat) :
    BehavesMat U j (matchStepP j env c reads pm f) (matchStep env c.sem m f) := by
  intro g src u mem
  cases g with
  | nil => exact Behaves.done (some _)
  | tok kind =>
    cases src with
    | nil => exact Behaves.done (some _)
    | cons t src =>
      simp only [matchStepP, matchStep]
      split
      · exact Behaves.done (some _)
      · exact Behaves.done (some _)
  | tru => exact Behaves.done (some _)
  | eof =>
    simp only [matchStepP, matchStep]
    split
    · exact Behaves.done (some _)
    · exact Behaves.done (some _)
  | peek g =>
    have e2 : ∀ s, matchStep env c.sem m f (.peek g) src s = (m g src s).bind fun r => match r with
        | .panic p s => some (.panic p s)
        | .ok _ s => some (.ok 0 s)
        | .fail _ _ s => some (.fail 0 (mismatch (.peek g) src) s) := by
      intro s; rw [matchStep]; rcases m g src s with _ | _ | _ | _ <;> rfl
    rw [matchStepP, e2]
    refine (h g src u mem).andThen fun x m' _ => ?_
    cases x <;> exact Behaves.done (some _)
  | not g =>
    have e2 : ∀ s, matchStep env c.sem m f (.not g) src s = (m g src s).bind fun r => match r with
        | .panic p s => some (.panic p s)
        | .fail _ _ s => some (.ok 0 s)
        | .ok _ s => some (.fail 0 (mismatch (.not g) src) s) := by
      intro s; rw [matchStep]; rcases m g src s with _ | _ | _ | _ <;> rfl
    rw [matchStepP, e2]
    refine (h g src u mem).andThen fun x m' _ => ?_
    cases x <;> exact Behaves.done (some _)
  | and gs => exact and_same h (.and gs) src gs false 0 u mem
  | or gs => exact or_same h (.or gs) src gs 0 none true u mem
  | rep0 id g =>
    have e2 : ∀ s, matchStep env c.sem m f (.rep0 id g) src s = (repLoop m g f src 0 0 s).bind fun r => match r with
        | .panic p s => some (.panic p s)
        | .done n k s => some (.ok n (s.setLen id k)) := by
      intro s; rw [matchStep]; rcases repLoop m g f src 0 0 s with _ | _ | _ <;> rfl
    rw [matchStepP, e2]
    refine (rep_same h g f src 0 0 u mem).andThen fun x m' _ => ?_
    cases x with
    | panic p u => exact Behaves.done (some _)
    | done n k u => exact Behaves.setLen (PRes.ok n u) PRes.at_
  | rep1 id g =>
    have e2 : ∀ s, matchStep env c.sem m f (.rep1 id g) src s = (m g src s).bind fun r => match r with
        | .panic p s => some (.panic p s)
        | .fail n e s => some (.fail n e (s.setLen id 0))
        | .ok n s =>
          if n ≤ src.length then
            (repLoop m g f (src.drop n) 0 0 s).bind fun r => match r with
              | .panic p s => some (.panic p s)
              | .done n2 k s => some (.ok (n + n2) (s.setLen id (k + 1)))
          else some (.panic .slice s) := by
      intro s; rw [matchStep]
      rcases m g src s with _ | ⟨n, s⟩ | _ | _ <;> try rfl
      dsimp only [Option.bind]
      split
      · rcases repLoop m g f (src.drop n) 0 0 s with _ | _ | _ <;> rfl
      · rfl
    rw [matchStepP, e2]
    refine (h g src u mem).andThen fun x m' _ => ?_
    cases x with
    | panic p u => exact Behaves.done (some _)
    | fail n e u => exact Behaves.setLen (PRes.fail n e u) PRes.at_
    | ok n u =>
      dsimp only [PRes.at_]
      split
      · refine (rep_same h g f (src.drop n) 0 0 u m').andThen fun x m' _ => ?_
        cases x with
        | panic p u => exact Behaves.done (some _)
        | done n2 k u => exact Behaves.setLen (PRes.ok (n + n2) u) PRes.at_
      · exact Behaves.done (some _)
  | rep01 id g =>
    have e2 : ∀ s, matchStep env c.sem m f (.rep01 id g) src s = (m g src s).bind fun r => match r with
        | .panic p s => some (.panic p s)
        | .fail _ _ s => some (.ok 0 (s.setLen id 0))
        | .ok n s => some (.ok n (s.setLen id 1)) := by
      intro s; rw [matchStep]; rcases m g src s with _ | _ | _ | _ <;> rfl
    rw [matchStepP, e2]
    refine (h g src u mem).andThen fun x m' _ => ?_
    cases x with
    | panic p u => exact Behaves.done (some _)
    | fail n e u => exact Behaves.setLen (PRes.ok 0 u) PRes.at_
    | ok n u => exact Behaves.setLen (PRes.ok n u) PRes.at_
  | list id a b list0 =>
    have e2 : ∀ s, matchStep env c.sem m f (.list id a b list0) src s = (m a src s).bind fun r => match r with
        | .panic p s => some (.panic p s)
        | .fail n e s => if list0 then some (.ok 0 (s.setLen id 0)) else some (.fail n e (s.setLen id 0))
        | .ok n s =>
          if n ≤ src.length then
            (repLoop m (.and [b, a]) f (src.drop n) n 1 s).bind fun r => match r with
              | .panic p s => some (.panic p s)
              | .done n k s => some (.ok n (s.setLen id k))
          else some (.panic .slice s) := by
      intro s; rw [matchStep]
      rcases m a src s with _ | ⟨n, s⟩ | _ | _ <;> try rfl
      dsimp only [Option.bind]
      split
      · rcases repLoop m (.and [b, a]) f (src.drop n) n 1 s with _ | _ | _ <;> rfl
      · rfl
    rw [matchStepP, e2]
    refine (h a src u mem).andThen fun x m' _ => ?_
    cases x with
    | panic p u => exact Behaves.done (some _)
    | fail n e u =>
      cases list0
      · exact Behaves.setLen (PRes.fail n e u) PRes.at_
      · exact Behaves.setLen (PRes.ok 0 u) PRes.at_
    | ok n u =>
      dsimp only [PRes.at_]
      split
      · refine (rep_same h (.and [b, a]) f (src.drop n) n 1 u m').andThen fun x m' _ => ?_
        cases x with
        | panic p u => exact Behaves.done (some _)
        | done n2 k u => exact Behaves.setLen (PRes.ok n2 u) PRes.at_
      · exact Behaves.done (some _)
  | var v =>
    simp only [matchStepP, matchStep]
    cases env v with
    | none => exact Behaves.done (some _)
    | some g => exact h g src u mem
  | named n g => exact h g src u mem
  | action a g =>
    have e2 : ∀ s, matchStep env c.sem m f (.action a g) src s = (m g src s).bind fun r => match r with
        | .ok n s =>
          if n ≤ src.length then
            match c.act a g (src.take n) (g.len s.len) s.u with
            | .ok u => some (.ok n { s with u := u })
            | .error (p, u) => some (.panic (.user p) { s with u := u })
          else some (.panic .slice s)
        | r => some r := by
      intro s; rw [matchStep]
      rcases m g src s with _ | ⟨n, s⟩ | _ | _ <;> try rfl
      dsimp only [Option.bind, Calls.sem]
      split
      · rcases c.act a g (src.take n) (g.len s.len) s.u with ⟨p, u⟩ | u <;> rfl
      · rfl
    rw [matchStepP, e2]
    refine (h g src u mem).andThen fun x m' _ => ?_
    cases x with
    | panic p u => exact Behaves.done (some _)
    | fail n e u => exact Behaves.done (some _)
    | ok n u =>
      dsimp only [PRes.at_]
      split
      · have key : ∀ l, c.act a g (src.take n) l u = c.act a g (src.take n) (g.len (m'.len j)) u →
            Behaves U j PRes.at_ (match c.act a g (src.take n) l u with
              | .ok u => .done (some (.ok n u))
              | .error (p, u) => .done (some (.panic (.user p) u)) : Proc (Option (PRes A σ P))) m'
            (match c.act a g (src.take n) (g.len (m'.len j)) u with
              | .ok u => some (.ok n ⟨m'.len j, u⟩)
              | .error (p, u) => some (.panic (.user p) ⟨m'.len j, u⟩)) := by
          intro l hl
          rw [hl]
          rcases c.act a g (src.take n) (g.len (m'.len j)) u with ⟨p, u⟩ | u
          · exact Behaves.done (some _)
          · exact Behaves.done (some _)
        unfold lenP
        cases hra : reads a with
        | false => exact key 0 (hr a hra g (src.take n) _ _ u)
        | true =>
          simp only [if_true]
          have hl := lenCell_len g (m'.len j)
          cases hc : g.lenCell with
          | inl z =>
            rw [hc] at hl
            exact key z (by rw [hl])
          | inr id =>
            rw [hc] at hl
            exact key (m'.len j id) (by rw [hl])
      · exact Behaves.done (some _)
  | trans a g =>
    have e2 : ∀ s, matchStep env c.sem m f (.trans a g) src s = match c.start a s.u with
        | .error (p, u) => some (.panic (.user p) ⟨s.len, u⟩)
        | .ok (v, u) => (m g src ⟨s.len, u⟩).bind fun r => match r with
          | .panic p s => some (.panic p s)
          | .ok n s =>
            match c.finish a v false s.u with
            | .error (p, u) => some (.panic (.user p) ⟨s.len, u⟩)
            | .ok u => some (.ok n ⟨s.len, u⟩)
          | .fail n e s =>
            match c.finish a v true s.u with
            | .error (p, u) => some (.panic (.user p) ⟨s.len, u⟩)
            | .ok u => some (.fail n e ⟨s.len, u⟩) := by
      intro s
      rw [matchStep]
      dsimp only [Calls.sem]
      rcases c.start a s.u with ⟨p, u⟩ | ⟨v, u⟩
      · rfl
      · dsimp only
        rcases m g src ⟨s.len, u⟩ with _ | ⟨n, s⟩ | ⟨n, e, s⟩ | ⟨p, s⟩
        · rfl
        · dsimp only [Option.bind, Option.isSome]
          rcases c.finish a v false s.u with ⟨p, u⟩ | u <;> rfl
        · dsimp only [Option.bind, Option.isSome]
          rcases c.finish a v true s.u with ⟨p, u⟩ | u <;> rfl
        · rfl
    rw [matchStepP, e2]
    dsimp only
    rcases c.start a u with ⟨p, u⟩ | ⟨v, u⟩
    · exact Behaves.done (some _)
    · dsimp only
      refine (h g src u mem).andThen fun x m' _ => ?_
      cases x with
      | panic p u => exact Behaves.done (some _)
      | ok n u =>
        dsimp only [PRes.at_]
        rcases c.finish a v false u with ⟨p, u⟩ | u
        · exact Behaves.done (some _)
        · exact Behaves.done (some _)
      | fail n e u =>
        dsimp only [PRes.at_]
        rcases c.finish a v true u with ⟨p, u⟩ | u
        · exact Behaves.done (some _)
        · exact Behaves.done (some _)

theorem match_same {j : Nat} {env : Env A} {c : Calls A σ V P} {reads : A → Bool}
    (hr : ∀ a, reads a = false → ∀ g toks l l' u, c.act a g toks l u = c.act a g toks l' u) :
    ∀ f, BehavesMat U j (matchP j env c reads f) (matchG env c.sem f)
  | 0 => fun _ _ _ _ => Behaves.done none
  | f + 1 => step_same hr (match_same hr f) f

/-! ### Tokenize and MatchExactly alone -/

theorem tokenLoop_len (j : Nat) : ∀ f acc (m : Mem), ((tokenLoopP j f acc).alone U m).2.len = m.len
  | 0, _, _ => rfl
  | f + 1, acc, m => by
    simp only [tokenLoopP, Proc.alone]
    split
    · rfl
    · split
      · rfl
      · rw [tokenLoop_len j f]; rfl

theorem setScanner_self (m : Mem) (j : Nat) (k : KwScanner) : (m.setScanner j k).scanner j = k := by simp [Mem.setScanner]

theorem tokenLoop_alone (j : Nat) : ∀ f acc (m : Mem) x, ((tokenLoopP j f acc).alone U m).1 = some x →
    x = (acc ++ (tokenizeLoop U (m.scanner j).keywords.get f (m.scanner j).sc).1, (tokenizeLoop U (m.scanner j).keywords.get f (m.scanner j).sc).2.1)
  | 0, acc, m, x, h => by cases h
  | f + 1, acc, m, x, h => by
    have hs : (m.scanner j).scan U = ((kwScan U (m.scanner j).keywords.get (m.scanner j).sc).1,
        { m.scanner j with sc := (kwScan U (m.scanner j).keywords.get (m.scanner j).sc).2 }) := rfl
    simp only [tokenLoopP, Proc.alone, hs] at h
    rw [tokenizeLoop]
    generalize hk : kwScan U (m.scanner j).keywords.get (m.scanner j).sc = y at h
    obtain ⟨t, s⟩ := y
    dsimp only at h ⊢
    cases he : s.errs with
    | cons e es => rw [he] at h; cases h; simp
    | nil =>
      rw [he] at h
      dsimp only at h ⊢
      by_cases ht : t.kind = EOF
      · rw [if_pos ht] at h ⊢; cases h; simp
      · rw [if_neg ht] at h ⊢
        have := tokenLoop_alone j f _ _ x h
        rw [this, setScanner_self]
        simp

theorem tokenLoop_some (j : Nat) {s s' : Scanner} {ts : List Token} (h : Run U s ts s') : ∀ f, ts.length ≤ f → ∀ acc (m : Mem), (m.scanner j).sc = s →
    ((tokenLoopP j f acc).alone U m).1 ≠ none := by
  induction h with
  | @eof s t s' h1 h2 =>
    intro f hf acc m hm
    cases f with
    | zero => cases hf
    | succ f =>
      have hs : (m.scanner j).scan U = ((kwScan U (m.scanner j).keywords.get (m.scanner j).sc).1,
          { m.scanner j with sc := (kwScan U (m.scanner j).keywords.get (m.scanner j).sc).2 }) := rfl
      simp only [tokenLoopP, Proc.alone, hs]
      rw [Scanner.kwScan_eq, hm, h1]
      split
      · simp [Proc.alone]
      · rw [if_pos]
        · simp [Proc.alone]
        · unfold Scanner.kwTok
          have : t.kind ≠ IDENT := by rw [h2]; decide
          dsimp only
          rw [if_neg this]
          exact h2
  | @cons s t s1 ts s2 h1 h2 hr ih =>
    intro f hf acc m hm
    cases f with
    | zero => cases hf
    | succ f =>
      have hs : (m.scanner j).scan U = ((kwScan U (m.scanner j).keywords.get (m.scanner j).sc).1,
          { m.scanner j with sc := (kwScan U (m.scanner j).keywords.get (m.scanner j).sc).2 }) := rfl
      simp only [tokenLoopP, Proc.alone, hs]
      rw [Scanner.kwScan_eq, hm, h1]
      split
      · simp [Proc.alone]
      · split
        · simp [Proc.alone]
        · exact ih f (by simpa using hf) _ _ (by rw [setScanner_self])

/-- `Tokenize` alone. -/
theorem tokenize_alone (j : Nat) (src : Str) (mode : Mode) (m : Mem) :
    ((tokenizeP j (2 * src.length + 2) src mode).alone U m).1 = some ((m.scanner j).tokenize U src mode).1 ∧
    ((tokenizeP j (2 * src.length + 2) src mode).alone U m).2.len = m.len := by
  refine ⟨?_, by simp only [tokenizeP, Proc.alone]; rw [tokenLoop_len]; rfl⟩
  obtain ⟨ts, s', hr, hl⟩ := Props.C03_terminates U (m.scanner j).sc src mode
  have hne := tokenLoop_some j hr (2 * src.length + 2) hl [] (m.setScanner j ((m.scanner j).init src mode)) (by
    rw [setScanner_self]
    unfold KwScanner.init
    split <;> rfl)
  simp only [tokenizeP, Proc.alone]
  cases hx : ((tokenLoopP j (2 * src.length + 2) []).alone U (m.setScanner j ((m.scanner j).init src mode))).1 with
  | none => exact absurd hx hne
  | some x =>
    rw [tokenLoop_alone j _ _ _ _ hx, setScanner_self]
    simp only [KwScanner.tokenize, List.nil_append]

/-- Without the `len` fields. -/
def PExact.of : MRes A σ P Unit → PExact A σ P
  | .ok _ s => .ok s.u
  | .err e s => .err e s.u
  | .panic p s => .panic p s.u

/-- `MatchExactly` alone. -/
theorem exact_alone {j : Nat} {env : Env A} {c : Calls A σ V P} {reads : A → Bool}
    (hr : ∀ a, reads a = false → ∀ g toks l l' u, c.act a g toks l u = c.act a g toks l' u) {g : Gr A} (hg : g ≠ .nil) (mode : Mode) (f : Nat)
    (src : Str) (u : σ) (m : Mem) :
    ((exactP j env c reads g mode (2 * src.length + 2) f src u).alone U m).1 =
      ((⟨g, mode, fun s => .ok () s, env, c.sem⟩ : Matcher A σ V P).matchExactly U f (m.scanner j) src ⟨m.len j, u⟩).1.map PExact.of := by
  unfold exactP
  rw [Proc.alone_andThen]
  obtain ⟨h1, h2⟩ := tokenize_alone (U := U) j src mode m
  generalize (tokenizeP j (2 * src.length + 2) src mode).alone U m = y at h1 h2
  obtain ⟨y, m'⟩ := y
  dsimp only at h1 h2
  subst h1
  dsimp only
  have e : ∀ (x : Matcher A σ V P) k s, (x.matchExactly U f k src s).1 = match (x.match_ U f k src s).1 with
      | none => none
      | some (.err e s) => some (.err e s)
      | some (.panic p s) => some (.panic p s)
      | some (.ok next s) => if next.length ≠ 0 then some (.err (.match_ (mismatch .eof next)) s) else some (.ok () s) := by
    intro x k s
    unfold Matcher.matchExactly
    rcases x.match_ U f k src s with ⟨_ | _ | _ | _, k⟩ <;> rfl
  rw [e, Props.match_eq _ hg]
  dsimp only
  generalize ((m.scanner j).tokenize U src mode).1 = z
  obtain ⟨ts, e⟩ := z
  cases e with
  | some e => rfl
  | none =>
    dsimp only
    rw [Proc.alone_andThen]
    obtain ⟨h3, _⟩ := match_same (U := U) (j := j) (env := env) hr f g ts u m'
    rw [← h2, h3]
    generalize (matchP j env c reads f g ts u).alone U m' = w at h3
    obtain ⟨w, m''⟩ := w
    rcases w with _ | ⟨n, u⟩ | ⟨n, e, u⟩ | ⟨p, u⟩
    · rfl
    · dsimp only [PRes.at_, Option.map]
      have hn : n ≤ ts.length := matchG_short _ _ _ _ _ h3
      rw [if_pos hn]
      by_cases hd : (ts.drop n).length ≠ 0
      · rw [if_pos hd, if_pos hd]; rfl
      · rw [if_neg hd, if_neg hd]; rfl
    · rfl
    · rfl

/-! ### Footprints -/

theorem Spec.Touches.mono {S W D S' W' D' : Nat → Prop} {p : Proc R} (h : Touches S W D p) (hs : ∀ j, S j → S' j) (hw : ∀ j, W j → W' j) (hd : ∀ j, D j → D' j) :
    Touches S' W' D' p := by
  induction h with
  | done r => exact .done r
  | setLen h _ ih => exact .setLen (hw _ h) ih
  | getLen h _ ih => exact .getLen (hd _ h) ih
  | init h _ ih => exact .init (hs _ h) ih
  | scan h _ ih => exact .scan (hs _ h) ih

theorem Spec.Touches.bind {S W D : Nat → Prop} {p : Proc R} {k : R → Proc X} (h : Touches S W D p) (hk : ∀ r, Touches S W D (k r)) :
    Touches S W D (p.bind k) := by
  induction h with
  | done r => exact hk r
  | setLen h _ ih => exact .setLen h ih
  | getLen h _ ih => exact .getLen h ih
  | init h _ ih => exact .init h ih
  | scan h _ ih => exact .scan h ih

theorem Spec.Touches.andThen {S W D : Nat → Prop} {p : Proc (Option R)} {k : R → Proc (Option X)} (h : Touches S W D p) (hk : ∀ r, Touches S W D (k r)) :
    Touches S W D (p.andThen k) := by
  refine h.bind fun r => ?_
  cases r with
  | none => exact .done _
  | some r => exact hk r

/-- What a matcher touches. -/
def TouchesMat (S W D : Nat → Prop) (m : PMat A σ P) : Prop := ∀ g src u, Touches S W D (m g src u)

theorem and_touches {S W D : Nat → Prop} {m : PMat A σ P} (h : TouchesMat S W D m) (all : Gr A) (src : List Token) :
    ∀ gs ff n u, Touches S W D (andLoopP m all src gs ff n u) := by
  intro gs ff n u
  fun_induction andLoopP m all src gs ff n u with
  | case1 => exact .done _
  | case2 _ _ _ _ ih => exact ih
  | case3 _ _ _ _ _ _ _ ih =>
    refine (h _ _ _).andThen fun r => ?_
    cases r with
    | ok n1 u => exact ih n1 u
    | fail n1 e u => dsimp only; split <;> exact .done _
    | panic p u => exact .done _
  | case4 => exact .done _

theorem or_touches {S W D : Nat → Prop} {m : PMat A σ P} (h : TouchesMat S W D m) (all : Gr A) (src : List Token) :
    ∀ gs nMax errMax multi u, Touches S W D (orLoopP m all src gs nMax errMax multi u)
  | [], nMax, errMax, multi, u => by
    unfold orLoopP
    split
    · exact .done _
    · split <;> exact .done _
  | g :: gs, nMax, errMax, multi, u => by
    unfold orLoopP
    refine (h _ _ _).andThen fun r => ?_
    cases r with
    | ok n1 u => exact .done _
    | panic p u => exact .done _
    | fail n1 e u =>
      dsimp only
      split
      · split
        · exact or_touches h all src gs _ _ _ _
        · exact or_touches h all src gs _ _ _ _
      · exact or_touches h all src gs _ _ _ _

theorem rep_touches {S W D : Nat → Prop} {m : PMat A σ P} (h : TouchesMat S W D m) (g : Gr A) :
    ∀ f src n k u, Touches S W D (repLoopP m g f src n k u)
  | 0, _, _, _, _ => .done _
  | f + 1, src, n, k, u => by
    unfold repLoopP
    refine (h _ _ _).andThen fun r => ?_
    cases r with
    | panic p u => exact .done _
    | fail n1 e u => exact .done _
    | ok n1 u =>
      dsimp only
      split
      · exact rep_touches h g f _ _ _ _
      · exact .done _

theorem step_touches {S W D : Nat → Prop} {j : Nat} {env : Env A} {c : Calls A σ V P} {reads : A → Bool} (hw : W j) (hd : ∀ a, reads a = true → D j)
    {m : PMat A σ P} (h : TouchesMat S W D m) (f : Nat) : TouchesMat S W D (matchStepP j env c reads m f) := by
  intro g src u
  cases g with
  | nil => exact .done _
  | tok kind =>
    cases src with
    | nil => exact .done _
    | cons t src => simp only [matchStepP]; split <;> exact .done _
  | tru => exact .done _
  | eof => simp only [matchStepP]; split <;> exact .done _
  | peek g => rw [matchStepP]; exact (h _ _ _).andThen fun r => by cases r <;> exact .done _
  | not g => rw [matchStepP]; exact (h _ _ _).andThen fun r => by cases r <;> exact .done _
  | and gs => exact and_touches h _ _ _ _ _ _
  | or gs => exact or_touches h _ _ _ _ _ _ _
  | rep0 id g =>
    rw [matchStepP]
    refine (rep_touches h _ _ _ _ _ _).andThen fun r => ?_
    cases r with
    | panic p u => exact .done _
    | done n k u => exact .setLen hw (.done _)
  | rep1 id g =>
    rw [matchStepP]
    refine (h _ _ _).andThen fun r => ?_
    cases r with
    | panic p u => exact .done _
    | fail n e u => exact .setLen hw (.done _)
    | ok n u =>
      dsimp only
      split
      · refine (rep_touches h _ _ _ _ _ _).andThen fun r => ?_
        cases r with
        | panic p u => exact .done _
        | done n k u => exact .setLen hw (.done _)
      · exact .done _
  | rep01 id g =>
    rw [matchStepP]
    refine (h _ _ _).andThen fun r => ?_
    cases r with
    | panic p u => exact .done _
    | fail n e u => exact .setLen hw (.done _)
    | ok n u => exact .setLen hw (.done _)
  | list id a b list0 =>
    rw [matchStepP]
    refine (h _ _ _).andThen fun r => ?_
    cases r with
    | panic p u => exact .done _
    | fail n e u => dsimp only; refine .setLen hw ?_; split <;> exact .done _
    | ok n u =>
      dsimp only
      split
      · refine (rep_touches h _ _ _ _ _ _).andThen fun r => ?_
        cases r with
        | panic p u => exact .done _
        | done n k u => exact .setLen hw (.done _)
      · exact .done _
  | var v =>
    simp only [matchStepP]
    cases env v with
    | none => exact .done _
    | some g => exact h _ _ _
  | named n g => exact h _ _ _
  | action a g =>
    rw [matchStepP]
    refine (h _ _ _).andThen fun r => ?_
    cases r with
    | panic p u => exact .done _
    | fail n e u => exact .done _
    | ok n u =>
      dsimp only
      split
      · have key : ∀ l, Touches S W D (match c.act a g (src.take n) l u with
            | .ok u => .done (some (.ok n u))
            | .error (p, u) => .done (some (.panic (.user p) u)) : Proc (Option (PRes A σ P))) := by
          intro l
          rcases c.act a g (src.take n) l u with ⟨p, u⟩ | u <;> exact .done _
        unfold lenP
        cases hra : reads a with
        | false => exact key 0
        | true =>
          simp only [if_true]
          cases g.lenCell with
          | inl n => exact key n
          | inr id => exact .getLen (hd a hra) fun n => key n
      · exact .done _
  | trans a g =>
    rw [matchStepP]
    rcases c.start a u with ⟨p, u⟩ | ⟨v, u⟩
    · exact .done _
    · dsimp only
      refine (h _ _ _).andThen fun r => ?_
      cases r with
      | panic p u => exact .done _
      | ok n u => dsimp only; rcases c.finish a v false u with ⟨p, u⟩ | u <;> exact .done _
      | fail n e u => dsimp only; rcases c.finish a v true u with ⟨p, u⟩ | u <;> exact .done _

theorem match_touches {S W D : Nat → Prop} {j : Nat} {env : Env A} {c : Calls A σ V P} {reads : A → Bool} (hw : W j) (hd : ∀ a, reads a = true → D j) :
    ∀ f, TouchesMat S W D (matchP j env c reads f)
  | 0 => fun _ _ _ => .done _
  | f + 1 => step_touches hw hd (match_touches hw hd f) f

theorem tokenLoop_touches {S W D : Nat → Prop} {j : Nat} (hs : S j) : ∀ f acc, Touches S W D (tokenLoopP j f acc)
  | 0, _ => .done _
  | f + 1, acc => by
    unfold tokenLoopP
    refine .scan hs fun t e => ?_
    split
    · exact .done _
    · split
      · exact .done _
      · exact tokenLoop_touches hs f _

theorem exact_touches {S W D : Nat → Prop} {j : Nat} {env : Env A} {c : Calls A σ V P} {reads : A → Bool} (hs : S j) (hw : W j)
    (hd : ∀ a, reads a = true → D j) (g : Gr A) (mode : Mode) (fTok f : Nat) (src : Str) (u : σ) :
    Touches S W D (exactP j env c reads g mode fTok f src u) := by
  unfold exactP
  refine (Touches.init hs (tokenLoop_touches hs _ _)).andThen fun r => ?_
  obtain ⟨ts, e⟩ := r
  cases e with
  | some e => exact .done _
  | none =>
    dsimp only
    refine (match_touches hw hd f _ _ _).andThen fun r => ?_
    cases r with
    | panic p u => exact .done _
    | fail n e u => exact .done _
    | ok n u =>
      dsimp only
      split
      · split <;> exact .done _
      · exact .done _

/-! ### Schedules -/

/-- The two memories look the same to a program that uses the scanners in `S` and reads the fields in `D`. -/
def LooksSame (S D : Nat → Prop) (m m' : Mem) : Prop :=
  (∀ j, S j → m.scanner j = m'.scanner j) ∧ ∀ j, D j → m.len j = m'.len j

theorem step_looks {S W D : Nat → Prop} {p : Proc R} (h : Touches S W D p) {m m' : Mem} (hm : LooksSame S D m m') :
    (p.step U m).1 = (p.step U m').1 ∧ LooksSame S D (p.step U m).2 (p.step U m').2 ∧ Touches S W D (p.step U m).1 := by
  have hset : ∀ j k, LooksSame S D (m.setScanner j k) (m'.setScanner j k) := by
    intro j k
    refine ⟨fun i hi => ?_, hm.2⟩
    simp only [Mem.setScanner]
    split
    · rfl
    · exact hm.1 i hi
  cases h with
  | done r => exact ⟨rfl, hm, .done r⟩
  | @setLen j id n k hw h =>
    refine ⟨rfl, ⟨hm.1, fun i hi => ?_⟩, h⟩
    simp only [Proc.step, Mem.setLen]
    split
    · rename_i e
      subst e
      rw [hm.2 i hi]
    · exact hm.2 i hi
  | @getLen j id k hd h =>
    refine ⟨?_, hm, h _⟩
    simp only [Proc.step]
    rw [hm.2 j hd]
  | @init j src mode k hs h =>
    refine ⟨rfl, ?_, h⟩
    simp only [Proc.step]
    rw [hm.1 j hs]
    exact hset _ _
  | @scan j k hs h =>
    refine ⟨?_, ?_, h _ _⟩
    · simp only [Proc.step]
      rw [hm.1 j hs]
    · simp only [Proc.step]
      rw [hm.1 j hs]
      exact hset _ _

/-- A step of another goroutine is not seen. -/
theorem step_unseen {S W D S' W' D' : Nat → Prop} {p : Proc R} (h : Touches S' W' D' p) (hs : ∀ j, S' j → ¬ S j) (hw : ∀ j, W' j → ¬ D j)
    {m m' : Mem} (hm : LooksSame S D m m') : LooksSame S D (p.step U m).2 m' := by
  have hset : ∀ j k, S' j → LooksSame S D (m.setScanner j k) m' := by
    intro j k hj
    refine ⟨fun i hi => ?_, hm.2⟩
    simp only [Mem.setScanner]
    rw [if_neg (fun (e : i = j) => hs j hj (e ▸ hi))]
    exact hm.1 i hi
  cases h with
  | done r => exact hm
  | @setLen j id n k hj h =>
    refine ⟨hm.1, fun i hi => ?_⟩
    simp only [Proc.step, Mem.setLen]
    rw [if_neg (fun (e : i = j) => hw j hj (e ▸ hi))]
    exact hm.2 i hi
  | getLen hd h => exact hm
  | init hj h => exact hset _ _ hj
  | scan hj h => exact hset _ _ hj

theorem step_touches' {S W D : Nat → Prop} {p : Proc R} (h : Touches S W D p) (m : Mem) : Touches S W D (p.step U m).1 :=
  (step_looks h ⟨fun _ _ => rfl, fun _ _ => rfl⟩).2.2

theorem alone_step (p : Proc R) (m : Mem) : (p.step U m).1.alone U (p.step U m).2 = p.alone U m := by cases p <;> rfl

/-- How many steps the program takes alone. -/
def Proc.steps (U : Uni) : Proc R → Mem → Nat
  | .done _, _ => 0
  | .setLen j id n k, m => 1 + k.steps U (m.setLen j id n)
  | .getLen j id k, m => 1 + (k (m.len j id)).steps U m
  | .init j src mode k, m => 1 + k.steps U (m.setScanner j ((m.scanner j).init src mode))
  | .scan j k, m => 1 + (k ((m.scanner j).scan U).1 ((m.scanner j).scan U).2.sc.errs).steps U (m.setScanner j ((m.scanner j).scan U).2)

theorem steps_step (p : Proc R) (m : Mem) : p.steps U m ≤ 1 + (p.step U m).1.steps U (p.step U m).2 := by
  cases p <;> simp [Proc.steps, Proc.step]

theorem steps_zero {p : Proc R} {m : Mem} (h : p.steps U m = 0) : ∃ r, p = .done r := by
  cases p with
  | done r => exact ⟨r, rfl⟩
  | _ => simp [Proc.steps] at h

theorem run_alone {S W D : Nat → Nat → Prop} {t : Nat} (hdis : ∀ i, i ≠ t → (∀ j, S i j → ¬ S t j) ∧ ∀ j, W i j → ¬ D t j) :
    ∀ (sched : List Nat) (c : Threads R) (g : Mem), (∀ i, Touches (S i) (W i) (D i) (c.procs i)) → LooksSame (S t) (D t) c.mem g →
      (∀ r, (c.run U sched).procs t = .done r → ((c.procs t).alone U g).1 = r) ∧
      ((c.procs t).steps U g ≤ sched.count t → ∃ r, (c.run U sched).procs t = .done r)
  | [], c, g, ht, hl => by
    constructor
    · intro r h
      simp only [Threads.run] at h
      rw [h]
      rfl
    · intro h
      have h : (c.procs t).steps U g = 0 := by simpa using h
      exact steps_zero h
  | i :: sched, c, g, ht, hl => by
    have ht' : ∀ k, Touches (S k) (W k) (D k) ((c.step U i).procs k) := by
      intro k
      simp only [Threads.step]
      split
      · rename_i e
        subst e
        exact step_touches' (ht k) _
      · exact ht k
    by_cases hi : i = t
    · subst hi
      obtain ⟨h1, h2, h3⟩ := step_looks (U := U) (ht i) hl
      have hp : (c.step U i).procs i = ((c.procs i).step U g).1 := by simp [Threads.step, h1]
      obtain ⟨h4, h5⟩ := run_alone hdis sched (c.step U i) ((c.procs i).step U g).2 ht' h2
      constructor
      · intro r h
        have := h4 r h
        rw [hp, alone_step] at this
        exact this
      · intro h
        refine h5 ?_
        rw [hp]
        have := steps_step (U := U) (c.procs i) g
        rw [List.count_cons_self] at h
        cases hq : c.procs i with
        | done r => simp [Proc.step, Proc.steps]
        | _ => rw [hq] at h; simp only [Proc.steps, Proc.step] at h ⊢; omega
    · have hp : (c.step U i).procs t = c.procs t := by
        simp only [Threads.step]
        rw [if_neg (fun e => hi e.symm)]
      obtain ⟨d1, d2⟩ := hdis i hi
      obtain ⟨h4, h5⟩ := run_alone hdis sched (c.step U i) g ht' (step_unseen (D := D t) (W := W t) (ht i) d1 d2 hl)
      rw [hp] at h4 h5
      constructor
      · exact h4
      · intro h
        rw [List.count_cons_of_ne hi] at h
        exact h5 h

end Tpl
