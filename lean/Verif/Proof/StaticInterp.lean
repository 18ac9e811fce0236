import Verif.Proof.Alike
import Verif.Proof.Go
import Verif.Proof.GeneratorCode
import Verif.Spec.StaticInterp

/-! For Props/StaticInterp. -/
namespace Tpl.Gen
open Tpl Tpl.Spec KwScanner Tpl.Props
variable {B : Type} {mk : Marker B} {Q : B → Prop}

/-! ### What compiled grammars consist of -/

/-- The tables mention only actions in `Q`. -/
structure TabOnly (Q : B → Prop) (t : Tab B) : Prop where
  grammars : ∀ n g, (n, g) ∈ t.grammars → g.Only Q
  vars : ∀ n g, (n, some g) ∈ t.vars → g.Only Q

/-- The marker puts only actions in `Q` around a grammar. -/
def MarksIn (mk : Marker B) (Q : B → Prop) (ms : List Str) : Prop := ∀ n ∈ ms, ∀ a g, mk a n = .ok g → a.Only Q → g.Only Q

theorem MarksIn.left {l l' : List Str} (h : MarksIn mk Q (l ++ l')) : MarksIn mk Q l := fun n hn => h n (List.mem_append_left _ hn)
theorem MarksIn.right {l l' : List Str} (h : MarksIn mk Q (l ++ l')) : MarksIn mk Q l' := fun n hn => h n (List.mem_append_right _ hn)

/-- What a piece of the text adds. -/
structure Adds (Q : B → Prop) (t t' : Tab B) : Prop where
  only : TabOnly Q t'
  scanner : t'.scanner = t.scanner

theorem none_only {g : Gr B} (h : g.acts = []) : g.Only Q := fun a ha => by rw [h] at ha; cases ha

theorem tokenOf_adds {l : Str} {t t' : Tab B} {g : Gr B} (hl : l.head? ≠ some 34) (ht : TabOnly Q t) (h : tokenOf l t = .ok (g, t')) :
    g.Only Q ∧ Adds Q t t' := by
  unfold tokenOf at h
  cases hk : t.scanner.ltot l with
  | panic => rw [hk] at h; cases h
  | ok x =>
    obtain ⟨k, k'⟩ := x
    have hsame : k' = t.scanner := by
      unfold KwScanner.ltot at hk
      dsimp only at hk
      split at hk
      · cases hk; rfl
      · cases l with
        | nil => cases hk
        | cons c rest =>
          dsimp only at hk
          rw [if_neg (fun e => hl (by rw [e]; rfl))] at hk
          cases hk; rfl
    subst hsame
    rw [hk] at h
    cases k with
    | zero => cases h
    | succ k => cases h; exact ⟨none_only rfl, ht, rfl⟩

theorem nameOf_adds {n : Str} {t t' : Tab B} {g : Gr B} (ht : TabOnly Q t) (h : nameOf n t = .ok (g, t')) : g.Only Q ∧ Adds Q t t' := by
  unfold nameOf at h
  split at h
  · cases h
  · split at h
    · rename_i hu
      refine tokenOf_adds ?_ ht h
      cases n with
      | nil => cases hu
      | cons c n =>
        intro e
        cases e
        cases hu
    · cases hg : t.grammars.lookup n with
      | some g' =>
        rw [hg] at h
        cases h
        exact ⟨(show g'.Only Q from ht.grammars _ _ (lookup_mem hg)), ht, rfl⟩
      | none =>
        rw [hg] at h
        cases hv : varNo n t.vars with
        | some v =>
          rw [hv] at h
          cases h
          exact ⟨none_only rfl, ht, rfl⟩
        | none =>
          rw [hv] at h
          dsimp only at h
          split at h
          · cases h
            exact ⟨none_only rfl, ht, rfl⟩
          · cases h
            refine ⟨none_only rfl, ⟨ht.grammars, ?_⟩, rfl⟩
            intro m g hm
            dsimp only at hm
            rcases List.mem_append.mp hm with hm | hm
            · exact ht.vars m g hm
            · simp at hm

theorem Adds.trans {t t' t'' : Tab B} (h : Adds Q t t') (h' : Adds Q t' t'') : Adds Q t t'' := ⟨h'.only, h'.scanner.trans h.scanner⟩

theorem oneOrOr_only {gs : List (Gr B)} (h : ∀ g ∈ gs, g.Only Q) : (oneOrOr gs).Only Q := by
  unfold oneOrOr
  split
  · exact h _ (by simp)
  · exact only_all h

theorem oneOrAnd_only {gs : List (Gr B)} (h : ∀ g ∈ gs, g.Only Q) : (oneOrAnd gs).Only Q := by
  unfold oneOrAnd
  split
  · exact h _ (by simp)
  · exact only_all h

mutual
theorem fac_adds : ∀ (f : Fac) {t t' : Tab B} {g : Gr B}, f.mild = true → CharsOk f.flat → MarksIn mk Q f.marks → TabOnly Q t →
    f.den mk t = .ok (g, t') → g.Only Q ∧ Adds Q t t'
  | .ident n, t, t', g, hm, hc, hq, ht, hd => nameOf_adds ht hd
  | .char l, t, t', g, hm, hc, hq, ht, hd => tokenOf_adds (by rw [hc (CHAR, l) (.head _) rfl]; decide) ht hd
  | .int l, t, t', g, hm, hc, hq, ht, hd => by
    rw [Fac.den] at hd
    split at hd
    · cases hd; exact ⟨none_only rfl, ht, rfl⟩
    · cases hd
  | .rep0 f, t, t', g, hm, hc, hq, ht, hd => by
    obtain ⟨y, h1, h2⟩ := bind_ok hd
    cases h2
    obtain ⟨h3, h4⟩ := fac_adds f hm hc.tail hq ht h1
    exact ⟨h3, ⟨h4.only.grammars, h4.only.vars⟩, h4.scanner⟩
  | .rep01 f, t, t', g, hm, hc, hq, ht, hd => by
    obtain ⟨y, h1, h2⟩ := bind_ok hd
    cases h2
    obtain ⟨h3, h4⟩ := fac_adds f hm hc.tail hq ht h1
    exact ⟨h3, ⟨h4.only.grammars, h4.only.vars⟩, h4.scanner⟩
  | .not f, t, t', g, hm, hc, hq, ht, hd => by
    obtain ⟨y, h1, h2⟩ := bind_ok hd
    cases h2
    obtain ⟨h3, h4⟩ := fac_adds f hm hc.tail hq ht h1
    exact ⟨h3, h4⟩
  | .peek f, t, t', g, hm, hc, hq, ht, hd => by
    obtain ⟨y, h1, h2⟩ := bind_ok hd
    cases h2
    obtain ⟨h3, h4⟩ := fac_adds f hm hc.tail hq ht h1
    exact ⟨h3, h4⟩
  | .paren a, t, t', g, hm, hc, hq, ht, hd => by
    obtain ⟨y, h1, h2⟩ := bind_ok hd
    cases h2
    obtain ⟨h3, h4⟩ := alts_adds a hm (by rw [Fac.flat] at hc; exact hc.tail.left) hq ht h1
    exact ⟨oneOrOr_only h3, h4⟩
  | .string l, t, t', g, hm, hc, hq, ht, hd => by cases hm
  | .rep1 f, t, t', g, hm, hc, hq, ht, hd => by cases hm

theorem sufs_adds : ∀ (s : Sufs) {t t' : Tab B} {a g : Gr B}, s.mild = true → CharsOk s.flat → MarksIn mk Q s.marks → TabOnly Q t →
    a.Only Q → s.den mk a t = .ok (g, t') → g.Only Q ∧ Adds Q t t'
  | .nil, t, t', a, g, hm, hc, hq, ht, ha, hd => by
    cases hd
    exact ⟨ha, ht, rfl⟩
  | .list f r, t, t', a, g, hm, hc, hq, ht, ha, hd => by
    obtain ⟨y, h1, h2⟩ := bind_ok hd
    rw [Sufs.mild, Bool.and_eq_true] at hm
    rw [Sufs.flat] at hc
    obtain ⟨h3, h4⟩ := fac_adds f hm.1 hc.tail.left hq.left ht h1
    obtain ⟨h5, h6⟩ := sufs_adds r hm.2 hc.tail.right hq.right (t := (newObj (.list · a y.1 false) y.2).2) ⟨h4.only.grammars, h4.only.vars⟩
      (fun x hx => (List.mem_append.mp hx).elim (ha x) (h3 x)) h2
    exact ⟨h5, h6.only, h6.scanner.trans h4.scanner⟩
  | .list0 f r, t, t', a, g, hm, hc, hq, ht, ha, hd => by
    obtain ⟨y, h1, h2⟩ := bind_ok hd
    rw [Sufs.mild, Bool.and_eq_true] at hm
    rw [Sufs.flat] at hc
    obtain ⟨h3, h4⟩ := fac_adds f hm.1 hc.tail.left hq.left ht h1
    obtain ⟨h5, h6⟩ := sufs_adds r hm.2 hc.tail.right hq.right (t := (newObj (.list · a y.1 true) y.2).2) ⟨h4.only.grammars, h4.only.vars⟩
      (fun x hx => (List.mem_append.mp hx).elim (ha x) (h3 x)) h2
    exact ⟨h5, h6.only, h6.scanner.trans h4.scanner⟩
  | .mark n r, t, t', a, g, hm, hc, hq, ht, ha, hd => by
    rw [Sufs.den] at hd
    rw [Sufs.flat] at hc
    cases hmk : mk a n with
    | error x => rw [hmk] at hd; cases hd
    | ok g1 =>
      rw [hmk] at hd
      exact sufs_adds r hm hc.tail.tail (fun m hm => hq m (List.mem_cons_of_mem _ hm)) ht (hq n (List.mem_cons_self ..) _ _ hmk ha) hd

theorem item_adds : ∀ (i : Item) {t t' : Tab B} {g : Gr B}, i.mild = true → CharsOk i.flat → MarksIn mk Q i.marks → TabOnly Q t →
    i.den mk t = .ok (g, t') → g.Only Q ∧ Adds Q t t'
  | .term f s, t, t', g, hm, hc, hq, ht, hd => by
    obtain ⟨y, h1, h2⟩ := bind_ok hd
    rw [Item.mild, Bool.and_eq_true] at hm
    rw [Item.flat] at hc
    obtain ⟨h3, h4⟩ := fac_adds f hm.1 hc.left hq.left ht h1
    obtain ⟨h5, h6⟩ := sufs_adds s hm.2 hc.right hq.right h4.only h3 h2
    exact ⟨h5, h4.trans h6⟩
  | .cut, t, t', g, hm, hc, hq, ht, hd => by
    cases hd
    exact ⟨none_only rfl, ht, rfl⟩

theorem seq_adds : ∀ (s : ItemSeq) {t t' : Tab B} {gs : List (Gr B)}, s.mild = true → CharsOk s.flat → MarksIn mk Q s.marks → TabOnly Q t →
    s.den mk t = .ok (gs, t') → (∀ g ∈ gs, g.Only Q) ∧ Adds Q t t'
  | .nil, t, t', g, hm, hc, hq, ht, hd => by
    cases hd
    exact ⟨(fun _ hg => nomatch hg), ht, rfl⟩
  | .cons i r, t, t', g, hm, hc, hq, ht, hd => by
    obtain ⟨y, h1, h2⟩ := bind_ok hd
    obtain ⟨z, h2', hz⟩ := bind_ok h2
    cases hz
    rw [ItemSeq.mild, Bool.and_eq_true] at hm
    rw [ItemSeq.flat] at hc
    obtain ⟨h3, h4⟩ := item_adds i hm.1 hc.left hq.left ht h1
    obtain ⟨h5, h6⟩ := seq_adds r hm.2 hc.right hq.right h4.only h2'
    exact ⟨fun g hg => (List.mem_cons.mp hg).elim (fun e => e ▸ h3) (h5 g), h4.trans h6⟩

theorem alts_adds : ∀ (a : Alts) {t t' : Tab B} {gs : List (Gr B)}, a.mild = true → CharsOk a.flat → MarksIn mk Q a.marks → TabOnly Q t →
    a.den mk t = .ok (gs, t') → (∀ g ∈ gs, g.Only Q) ∧ Adds Q t t'
  | .one i is, t, t', g, hm, hc, hq, ht, hd => by
    obtain ⟨y, h1, h2⟩ := bind_ok hd
    obtain ⟨z, h2', hz⟩ := bind_ok h2
    cases hz
    rw [Alts.mild, Bool.and_eq_true] at hm
    rw [Alts.flat] at hc
    obtain ⟨h3, h4⟩ := item_adds i hm.1 hc.left hq.left ht h1
    obtain ⟨h5, h6⟩ := seq_adds is hm.2 hc.right hq.right h4.only h2'
    refine ⟨fun g hg => ?_, h4.trans h6⟩
    cases List.mem_singleton.mp hg
    exact oneOrAnd_only fun g hg => (List.mem_cons.mp hg).elim (fun e => e ▸ h3) (h5 g)
  | .alt i is r, t, t', g, hm, hc, hq, ht, hd => by
    obtain ⟨y, h1, h2⟩ := bind_ok hd
    obtain ⟨z, h2', hz⟩ := bind_ok h2
    obtain ⟨w, h2'', hz⟩ := bind_ok hz
    cases hz
    rw [Alts.mild, Bool.and_eq_true, Bool.and_eq_true] at hm
    rw [Alts.flat] at hc
    obtain ⟨h3, h4⟩ := item_adds i hm.1.1 hc.left.left hq.left.left ht h1
    obtain ⟨h5, h6⟩ := seq_adds is hm.1.2 hc.left.right hq.left.right h4.only h2'
    obtain ⟨h7, h8⟩ := alts_adds r hm.2 hc.right.tail hq.right h6.only h2''
    refine ⟨fun g hg => ?_, (h4.trans h6).trans h8⟩
    rcases List.mem_cons.mp hg with rfl | hg
    · exact oneOrAnd_only fun g hg => (List.mem_cons.mp hg).elim (fun e => e ▸ h3) (h5 g)
    · exact h7 g hg
end

theorem define_adds {n : Str} {g : Gr B} {t t' : Tab B} (ht : TabOnly Q t) (hg : g.Only Q) (h : define n g t = .ok t') : Adds Q t t' := by
  rcases define_cases h with ⟨_, _, rfl, _⟩ | ⟨_, _, i, hi, rfl⟩ | ⟨h1, h2, rfl⟩
  · exact ⟨ht, rfl⟩
  · refine ⟨⟨ht.grammars, ?_⟩, rfl⟩
    intro m g' hm
    dsimp only at hm
    rcases List.mem_or_eq_of_mem_set hm with hm | hm
    · exact ht.vars m g' hm
    · cases hm; exact hg
  · refine ⟨⟨?_, ht.vars⟩, rfl⟩
    intro m g' hm
    rcases List.mem_cons.mp hm with hm | hm
    · cases hm; exact hg
    · exact ht.grammars m g' hm

theorem doc_adds : ∀ (rs : List Rule) {t t' : Tab B}, (∀ r ∈ rs, r.body.mild = true) → CharsOk (flatDoc rs) → MarksIn mk Q (marksDoc rs) →
    TabOnly Q t → denDoc mk rs t = .ok t' → Adds Q t t'
  | [], t, t', _, _, _, ht, h => by cases h; exact ⟨ht, rfl⟩
  | r :: rs, t, t', hm, hc, hq, ht, h => by
    obtain ⟨t1, hd1, hd2⟩ := bind_ok h
    obtain ⟨x, hd3, hd4⟩ := bind_ok hd1
    have hc1 : CharsOk r.body.flat := by
      intro y hy
      refine hc y (List.mem_flatten.mpr ⟨r.flat, by simp, ?_⟩)
      rw [Rule.flat]
      simp [hy]
    have hq' : MarksIn mk Q (r.body.marks ++ marksDoc rs) := by simpa [marksDoc] using hq
    obtain ⟨h1, h2⟩ := alts_adds r.body (hm r (.head _)) hc1 hq'.left ht hd3
    have h3 := define_adds h2.only (oneOrOr_only h1) hd4
    have h4 := doc_adds rs (fun y hy => hm y (.tail _ hy)) (fun y hy => hc y (by
        simp only [flatDoc, List.map_cons, List.flatten_cons, List.mem_append]
        exact .inr hy)) hq'.right h3.only hd2
    exact (h2.trans h3).trans h4

/-! ### What the actions do -/

variable {E X I τ F W α β : Type}

/-- Two pieces of code that do the same, or both panic. -/
def AlikeCode (x x' : Code E X I τ α) : Prop := ∀ f m m' s, AlikeCb (x.run f m s) (x'.run f m' s)

theorem Alone.alike {x : Code E X I τ α} (h : Alone x) : AlikeCode x x := fun f m m' s => by rw [h f m m' s]; exact .same _

theorem alike_pure (a : α) : AlikeCode (pure a : Code E X I τ α) (pure a) := fun _ _ _ _ => .same _
theorem alike_panic (p p' : Panic Str (IPanic E X)) : AlikeCode (Go.panic p : Code E X I τ α) (Go.panic p') := fun _ _ _ _ => .panic
theorem alike_len (g : Gr Str) : AlikeCode (Go.len g : Code E X I τ Int) (Go.len g) := fun _ _ _ _ => .same _
theorem alike_get : AlikeCode (Go.get : Code E X I τ _) Go.get := fun _ _ _ _ => .same _
theorem alike_modify (g : Eng I τ → Eng I τ) : AlikeCode (Go.modify g : Code E X I τ _) (Go.modify g) := fun _ _ _ _ => .same _

theorem alike_bind {x x' : Code E X I τ α} {k k' : α → Code E X I τ β} (hx : AlikeCode x x') (hk : ∀ a, AlikeCode (k a) (k' a)) :
    AlikeCode (x >>= k) (x' >>= k') := by
  intro f m m' s
  rw [Go.run_bind, Go.run_bind]
  have h := hx f m m' s
  generalize x.run f m s = r at h
  generalize x'.run f m' s = r' at h
  cases h with
  | panic => exact .panic
  | same r =>
    cases r with
    | none => exact .same _
    | some r =>
      cases r with
      | panic p s => exact .same _
      | ok a s => exact hk a f m m' s

theorem alike_recover {x x' : Code E X I τ α} (hx : AlikeCode x x') (h : Panic Str (IPanic E X) → Panic Str (IPanic E X)) :
    AlikeCode (Go.recover x fun p => Go.panic (h p)) (Go.recover x' fun p => Go.panic (h p)) := by
  intro f m m' s
  rw [Go.run_recover, Go.run_recover]
  have h := hx f m m' s
  generalize x.run f m s = r at h
  generalize x'.run f m' s = r' at h
  cases h with
  | panic => exact .panic
  | same r =>
    cases r with
    | none => exact .same _
    | some r => cases r <;> exact .same _

theorem strconv_octal {b : UInt8} {rest : Str} (h : b = 46 ∨ b = 101 ∨ b = 69 ∨ b = 105) : strconvInt (b :: rest) 8 = .error .syntax_ := by
  rcases h with rfl | rfl | rfl | rfl <;> rfl

theorem strconv_dec {b : UInt8} {rest : Str} (h : b = 46 ∨ b = 101 ∨ b = 69 ∨ b = 105) : strconvInt (48 :: b :: rest) 10 = .error .syntax_ := by
  rcases h with rfl | rfl | rfl | rfl <;> rfl

/-- Integers in decimal are read in the same way. -/
theorem parseInt_dec {lit : Str} (h : Decimal lit) (hne : lit ≠ []) : ParseInt lit = .ok (strconvInt lit 10) := by
  unfold ParseInt
  split
  · exact absurd rfl hne
  · rfl
  · rename_i b rest
    have hb := h b rest rfl
    rw [if_neg (by rcases hb with rfl | rfl | rfl | rfl <;> decide), strconv_octal hb, strconv_dec hb]
  · rfl

theorem parseFloat_dec (L : Lits F) (hz : L.parse (bytes "0") = some (L.ofInt 0)) {lit : Str} (h : Decimal lit) (hne : lit ≠ []) :
    ParseFloat L lit = .ok (match L.parse lit with
      | some x => .ok x
      | none => .error .float) := by
  unfold ParseFloat
  dsimp only
  split
  · exact absurd rfl hne
  · have : L.parse [48] = some (L.ofInt 0) := hz
    rw [this]
  · rename_i b rest
    have hb := h b rest rfl
    rw [if_neg (by rcases hb with rfl | rfl | rfl | rfl <;> decide), strconv_octal hb]
    rfl
  · rfl

theorem litArg_alike {c : Client E X I τ F W} (hc : Modest c) (mark : Str) (t : ArgTy) {toks : List Token} (hD : ∀ t ∈ toks, Decimal t.lit) :
    AlikeCode (litArg c.lits mark t toks : Code E X I τ _) (Static.litArg c.lits mark t toks) := by
  unfold litArg Static.litArg
  cases toks with
  | nil => exact alike_panic _ _
  | cons tok toks =>
    have hd := hD tok (.head _)
    have hint : AlikeCode (match ParseInt tok.lit with
        | .panic => Go.panic .slice
        | .ok (.ok v) => pure (.int v)
        | .ok (.error e) => Go.panic (.user (.str (.arg mark (.num e)))) : Code E X I τ (Arg F))
        (match strconvInt tok.lit 10 with
        | .ok v => pure (.int v)
        | .error e => Go.panic (.user (.str (.arg mark (.num e))))) := by
      by_cases hne : tok.lit = []
      · rw [hne]; exact alike_panic _ _
      · rw [parseInt_dec hd hne]
        cases strconvInt tok.lit 10 with
        | ok v => exact alike_pure _
        | error e => exact alike_panic _ _
    cases t with
    | string => exact alike_pure _
    | float64 =>
      dsimp only
      by_cases hne : tok.lit = []
      · rw [hne, hc.empty]
        exact alike_panic _ _
      · rw [parseFloat_dec _ hc.zero hd hne]
        cases c.lits.parse tok.lit with
        | some x => exact alike_pure _
        | none => exact alike_panic _ _
    | int64 => exact hint
    | int => exact hint
    | _ => exact alike_panic _ _

theorem markArgs_alike {c : Client E X I τ F W} (hc : Modest c) (mark : Str) {params : List ArgTy}
    (hp : params.length ≤ 1 ∧ .ctx ∉ params ∧ .fline ∉ params) {toks : List Token} (hD : ∀ t ∈ toks, Decimal t.lit) (g : Gr Str) :
    AlikeCode (markArgs c.lits mark params toks g : Code E X I τ _) (Static.markArgs c.lits mark params toks g) := by
  unfold markArgs Static.markArgs
  cases params with
  | nil => exact alike_pure _
  | cons t more =>
    cases more with
    | cons t' more => simp at hp
    | nil =>
      dsimp only
      split
      · split
        · exact alike_bind (alike_len g) fun a => alike_pure _
        · exact alike_panic _ _
      · cases t with
        | ctx => simp at hp
        | fline => simp at hp
        | intf => exact alike_pure _
        | eng => exact alike_pure _
        | _ => exact alike_bind (litArg_alike hc mark _ hD) fun a => alike_pure _

theorem validateType_alike (R : Reflect W) (v : Option W) (t : GoTy) : AlikeCode (validateType R v t : Code E X I τ _) (validateType R v t) := by
  unfold validateType
  split
  · exact alike_pure _
  · cases v with
    | none => exact alike_panic _ _
    | some w =>
      dsimp only
      split
      · exact alike_pure _
      · split
        · exact alike_pure _
        · exact alike_pure _

theorem validateAll_alike (R : Reflect W) : ∀ (vs : List (Option W)) (ts : List GoTy), AlikeCode (validateAll R vs ts : Code E X I τ _) (validateAll R vs ts)
  | [], _ => by unfold validateAll; exact alike_pure _
  | _ :: _, [] => by unfold validateAll; exact alike_pure _
  | v :: vs, t :: ts => by
    unfold validateAll
    refine alike_bind (validateType_alike R v t) fun r => ?_
    cases r with
    | error e => exact alike_pure _
    | ok w =>
      refine alike_bind (validateAll_alike R vs ts) fun r => ?_
      cases r <;> exact alike_pure _

theorem validateArgs_alike (R : Reflect W) (ins : List GoTy) (rest : Option GoTy) (args : List (Option W)) :
    AlikeCode (validateArgs R ins rest args : Code E X I τ _) (validateArgs R ins rest args) := by
  unfold validateArgs
  cases rest with
  | none => exact validateAll_alike R _ _
  | some t =>
    refine alike_bind (validateAll_alike R _ _) fun r => ?_
    cases r with
    | error e => exact alike_pure _
    | ok rs =>
      refine alike_bind (validateAll_alike R _ _) fun r => ?_
      cases r <;> exact alike_pure _

theorem doCall_alike (R : Reflect W) {stk : StackI (Go Str (Eng I τ) (IPanic E X)) E W} (hpop : ∀ n, Alone (stk.popArgs n)) (hpush : ∀ ws, Alone (stk.pushRet ws))
    {fn : GoFn (Go Str (Eng I τ) (IPanic E X)) W} (hfn : ∀ args, Alone (fn.body args)) (arity : Nat) :
    AlikeCode (doCall R stk fn arity) (doCall R stk fn arity) := by
  have hfin : ∀ ins : List (Option W), AlikeCode (do
      let out ← reflectCall R fn ins
      match ← stk.pushRet out with
      | none => pure none
      | some e => pure (some (.ret e)) : Code E X I τ (Option (CallErr E))) (do
      let out ← reflectCall R fn ins
      match ← stk.pushRet out with
      | none => pure none
      | some e => pure (some (.ret e))) := by
    intro ins
    refine alike_bind ?_ fun out => alike_bind (Alone.alike (hpush out)) fun r => by cases r <;> exact alike_pure _
    unfold reflectCall
    split
    · exact Alone.alike (hfn _)
    · exact alike_panic _ _
  unfold doCall
  dsimp only
  split
  · refine alike_bind (Alone.alike (hpop _)) fun r => ?_
    cases r with
    | none => exact alike_pure _
    | some args =>
      refine alike_bind (validateArgs_alike R _ _ _) fun r => ?_
      cases r with
      | error e => exact alike_pure _
      | ok ins => exact hfin ins
  · exact hfin []

theorem perform_alike {c : Client E X I τ F W} (hc : Modest c) {mark : Str} {e : Entry E X I τ F W} (he : c.table mark = some e)
    {toks : List Token} (hD : ∀ t ∈ toks, Decimal t.lit) (g : Gr Str) : AlikeCode (c.perform mark e toks g) (Static.perform c mark e toks g) := by
  unfold Client.perform Static.perform
  cases e with
  | notFunc => exact alike_pure _
  | variadic => exact alike_pure _
  | noParam => exact alike_pure _
  | recv params ok body => exact alike_bind (markArgs_alike hc mark (hc.one _ _ _ _ he) hD g) fun args => Alone.alike (hc.recv _ _ _ _ he args)
  | plain fn =>
    dsimp only
    cases hf : c.callFn with
    | some call => exact Alone.alike (hc.callFn _ hf fn)
    | none =>
      refine alike_bind (doCall_alike _ hc.pop hc.push (hc.plain _ _ he) _) fun r => ?_
      cases r with
      | none => exact alike_pure _
      | some e => exact alike_panic _ _

theorem action_alike {c : Client E X I τ F W} (hc : Modest c) {mark : Str} (hm : mark ≠ bytes "_tr")
    {toks : List Token} (hD : ∀ t ∈ toks, Decimal t.lit) (g : Gr Str) : AlikeCode (c.action mark g toks) (Static.action c mark g toks) := by
  unfold Client.action Static.action
  cases he : c.table mark with
  | none =>
    dsimp only
    split
    · exact alike_modify _
    · split
      · exact alike_modify _
      · rw [if_neg (fun h => hm h.1)]
        exact alike_pure _
  | some e =>
    refine alike_bind alike_get fun s => ?_
    split
    · exact alike_pure _
    · exact alike_recover (perform_alike hc he hD g) _

/-- Both markers accept the same marks. -/
theorem marker_same {c : Client E X I τ F W} (hc : Modest c) : Static.marker c = c.marker := by
  funext g mark
  unfold Static.marker Client.marker
  dsimp only
  cases he : c.table mark with
  | none => rfl
  | some e =>
    cases e with
    | recv params ok body =>
      have := (hc.one _ _ _ _ he).1
      dsimp only
      rw [if_neg (show ¬ params.length > 1 by omega), if_neg (show ¬ params.length > 2 by omega)]
      rfl
    | _ => rfl

end Tpl.Gen
