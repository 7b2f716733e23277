import Verif.Model.Context
/-
Model of the Genshi directives, flatland/out/genshi.py.

Genshi itself is not part of the code.  Of it is modelled: events (without positions), attributes (`Attrs`), qualified names, and the
rendering of a stream with directives (`Template._flatten`, `_apply_directives` of Genshi 0.6).  An EXPR event stands for the value
`_eval_expr` gives in the context at hand: evaluating has no side effects.  Interpolations in attributes give no streams.  Directives of
others (`py:if`, `py:for`, ...) go on with the stream they are given, a number of times.  What `form:bind` evaluates to is an element or
None.
-/
namespace Flatland

/-- `genshi.core.QName` [out/genshi.py:4] -/
structure QN where
  ns : Option PStr
  loc : PStr
  deriving DecidableEq

/-- a piece of an interpolated attribute: text, an expression that gives text or an object shown as a text, one that raises
[out/genshi.py:108-113, 123-137, 360-383] -/
inductive APart where
  | text (s : PStr)
  | shown (s : PStr)
  | raises (e : PyErr)
  deriving DecidableEq

/-- the value of an attribute: a text (or what a transform left there), or the pieces of an interpolation [out/genshi.py:275-281] -/
inductive GVal where
  | val (v : HtmlVal)
  | parts (ps : List APart)
  deriving DecidableEq

/-- `genshi.core.Attrs`: pairs with different names, in order [out/genshi.py:269, 275-304] -/
abbrev GAttrs := List (QN × GVal)

/-- Directives: `form:bind` with what it evaluates to, `form:auto-*` with its pieces, the tags `form:with` and `form:set` with their
attributes, a directive of others that goes on `n` times. [out/genshi.py:101-258] -/
inductive Dir where
  | bind (b : Option Bind)
  | control (name : PStr) (ps : List APart)
  | withOpts (attrs : List (PStr × HtmlVal))
  | setOpts (attrs : List (PStr × HtmlVal))
  | foreign (n : Nat)

/-- Events.  `safe` texts are Markup, to be output as they are.  EXPR events are `shown` (a text, or an object shown as one; safe if it has
`__html__`), `raises` and `stream` (an iterator of events). [out/genshi.py:261-383] -/
inductive Ev where
  | start (tag : QN) (attrs : GAttrs)
  | stop (tag : QN)
  | text (s : PStr) (safe : Bool)
  | shown (s : PStr) (safe : Bool)
  | raises (e : PyErr)
  | stream (evs : List Ev)
  | sub (ds : List Dir) (evs : List Ev)
  | other (n : Nat)

/-! ### Genshi's Attrs -/

/-- `attrs |= ((qname, value),)` [genshi.core.Attrs.__or__, no code here; used at out/genshi.py:279, 302] -/
def attrsPut (a : GAttrs) (q : QN) (v : GVal) : GAttrs :=
  if a.any (fun p => p.1 == q) then a.map (fun p => if p.1 = q then (q, v) else p) else a ++ [(q, v)]

/-- `attrs -= qname` [genshi.core.Attrs.__sub__, no code here; used at out/genshi.py:304] -/
def attrsDel (a : GAttrs) (q : QN) : GAttrs := a.filter fun p => decide (p.1 ≠ q)

/-! ### _simplify_stream -/

mutual
/-- how much there is of an event; for termination only, no code -/
def Ev.size : Ev → Nat
  | .stream evs => 1 + sizes evs
  | _ => 1
/-- no code -/
def sizes : List Ev → Nat
  | [] => 0
  | e :: r => e.size + sizes r
end

/-- what `_simplify_stream` returns: a text, or the stream [out/genshi.py:360-383] -/
inductive Simple where
  | text (s : PStr)
  | events (l : List Ev)

/-- no code -/
def Simple.size : Simple → Nat
  | .text _ => 0
  | .events l => sizes l

theorem sizes_append (a b : List Ev) : sizes (a ++ b) = sizes a + sizes b := by
  induction a with
  | nil => simp [sizes]
  | cons x a ih => simp only [List.cons_append, sizes, ih]; omega

theorem Ev.size_pos (e : Ev) : 0 < e.size := by cases e <;> simp [Ev.size] <;> omega

/-- `_simplify_stream`, flatland/out/genshi.py:360-383: `done` is what the loop has passed, `todo` what is to come, `parts` what is joined in
the end (none once a list is among the parts: joining raises TypeError).  An iterator that is no text replaces its event while the loop
goes on behind its first event. -/
def simplifyLoop (done : List Ev) : (todo : List Ev) → (parts : Option PStr) → Except PyErr { r : Simple // r.size ≤ sizes done + sizes todo }
  | [], some s => .ok ⟨.text s, by simp [Simple.size]⟩
  | [], .none => .error .type
  | .text s b :: r, p =>
    match simplifyLoop (done ++ [.text s b]) r (p.map (· ++ s)) with
    | .ok ⟨x, h⟩ => .ok ⟨x, by simp only [sizes_append, sizes, Ev.size] at h ⊢; omega⟩
    | .error e => .error e
  | .shown s b :: r, p =>
    match simplifyLoop (done ++ [.shown s b]) r (p.map (· ++ s)) with
    | .ok ⟨x, h⟩ => .ok ⟨x, by simp only [sizes_append, sizes, Ev.size] at h ⊢; omega⟩
    | .error e => .error e
  | .raises e :: _, _ => .error e
  | .stream evs :: r, p =>
    match simplifyLoop [] evs (some []) with
    | .error e => .error e
    | .ok ⟨.text s, _⟩ =>
      match simplifyLoop (done ++ [.text s false]) r (p.map (· ++ s)) with
      | .ok ⟨x, h⟩ => .ok ⟨x, by simp only [sizes_append, sizes, Ev.size] at h ⊢; omega⟩
      | .error e => .error e
    | .ok ⟨.events [], _⟩ =>
      match simplifyLoop done r .none with
      | .ok ⟨x, h⟩ => .ok ⟨x, by simp only [sizes, Ev.size] at h ⊢; omega⟩
      | .error e => .error e
    | .ok ⟨.events (x :: l), hs⟩ =>
      match simplifyLoop (done ++ [x]) (l ++ r) .none with
      | .ok ⟨y, h⟩ => .ok ⟨y, by simp only [Simple.size, sizes_append, sizes, Ev.size] at hs h ⊢; omega⟩
      | .error e => .error e
  | .start t a :: r, _ => .ok ⟨.events (done ++ .start t a :: r), by simp [Simple.size, sizes_append]⟩
  | .stop t :: r, _ => .ok ⟨.events (done ++ .stop t :: r), by simp [Simple.size, sizes_append]⟩
  | .sub ds evs :: r, _ => .ok ⟨.events (done ++ .sub ds evs :: r), by simp [Simple.size, sizes_append]⟩
  | .other n :: r, _ => .ok ⟨.events (done ++ .other n :: r), by simp [Simple.size, sizes_append]⟩
termination_by todo => sizes todo
decreasing_by
  all_goals (try simp only [sizes, Ev.size, sizes_append])
  all_goals (try omega)
  have := Ev.size_pos x
  simp only [Simple.size, sizes] at hs
  omega

/-- `_simplify_stream`, flatland/out/genshi.py:360-383. -/
def simplify (evs : List Ev) : Except PyErr Simple :=
  match simplifyLoop [] evs (some []) with
  | .ok r => .ok r.1
  | .error e => .error e

/-- the same for the pieces of an attribute [out/genshi.py:278, 360-383] -/
def joinPieces : List APart → Except PyErr PStr
  | [] => .ok []
  | .text s :: r => (joinPieces r).map (s ++ ·)
  | .shown s :: r => (joinPieces r).map (s ++ ·)
  | .raises e :: _ => .error e

/-! ### the directives -/

/-- `_to_context`, flatland/out/genshi.py:27-30. -/
def toContext (name : PStr) : PStr :=
  if name ∈ ["auto-name".toList, "auto-value".toList, "auto-domid".toList, "auto-for".toList, "auto-tabindex".toList, "auto-filter".toList,
      "domid-format".toList] then name.map (fun c => if c = '-' then '_' else c) else name

/-- The loop `for control_attribute in directives: control_attribute.inject(...)`, flatland/out/genshi.py:123-137, 265-266.  Other
directives have no `inject`. -/
def inject (m : Attrs) : List Dir → Except PyErr Attrs
  | [] => .ok m
  | .control name ps :: r => match joinPieces ps with
    | .ok s => inject (dictPut m (toContext name) (.text s)) r
    | .error e => .error e
  | _ :: _ => .error .attribute

/-- The loop over the attributes, flatland/out/genshi.py:274-281: those without namespace go to the mapping, simplified. -/
def plainAttrs (cur : GAttrs) (m : Attrs) : GAttrs → Except PyErr (GAttrs × Attrs)
  | [] => .ok (cur, m)
  | (q, v) :: r =>
    if q.ns = .none then
      match v with
      | .val (.text s) => plainAttrs cur (dictPut m q.loc (.text s)) r
      | .val (.markup s) => plainAttrs cur (dictPut m q.loc (.markup s)) r
      | .val _ => .error .type
      | .parts ps => match joinPieces ps with
        | .ok s => plainAttrs (attrsPut cur q (.val (.text s))) (dictPut m q.loc (.text s)) r
        | .error e => .error e
    else plainAttrs cur m r

/-- `isinstance(d, Binding)` [out/genshi.py:332] -/
def Dir.isBind : Dir → Bool
  | .bind _ => true
  | _ => false

/-- `isinstance(d, EvaluatedLast)` [out/genshi.py:53] -/
def Dir.isLocal : Dir → Bool
  | .foreign _ => false
  | _ => true

/-- The loop `while stack`, flatland/out/genshi.py:342-350: the events up to and with the end of the tag, and those behind it; none if the
stream ends before. -/
def takeTag (q : QN) : Nat → List Ev → Option (List Ev × List Ev)
  | 0, evs => some ([], evs)
  | _ + 1, [] => .none
  | n + 1, e :: r =>
    let n' := match e with
      | .start t _ => if t = q then n + 2 else n + 1
      | .stop t => if t = q then n else n + 1
      | _ => n + 1
    (takeTag q n' r).map fun p => (e :: p.1, p.2)

theorem takeTag_append {q : QN} {n : Nat} {evs a b : List Ev} (h : takeTag q n evs = some (a, b)) : evs = a ++ b := by
  induction evs generalizing n a b with
  | nil => cases n <;> simp [takeTag] at h; simp [h]
  | cons e r ih =>
    cases n with
    | zero => simp [takeTag] at h; simp [← h.1, ← h.2]
    | succ n =>
      simp only [takeTag, Option.map_eq_some_iff, Prod.mk.injEq] at h
      obtain ⟨⟨x, y⟩, h1, rfl, rfl⟩ := h
      simp [ih h1]

theorem takeTag_sizeOf {q : QN} {n : Nat} {evs a b : List Ev} (h : takeTag q n evs = some (a, b)) :
    sizeOf a ≤ sizeOf evs ∧ sizeOf b ≤ sizeOf evs := by
  have key : ∀ x y : List Ev, sizeOf x ≤ sizeOf (x ++ y) ∧ sizeOf y ≤ sizeOf (x ++ y) := by
    intro x y
    induction x with
    | nil =>
      refine ⟨?_, Nat.le_refl _⟩
      cases y <;> simp; omega
    | cons c x ih => simp only [List.cons_append, List.cons.sizeOf_spec]; omega
  rw [takeTag_append h]
  exact key a b

/-- `_bind_unbound_tags`, flatland/out/genshi.py:325-357; IndexError if a tag has no end. -/
def bindUnbound (q : QN) (b : Bind) : List Ev → Except PyErr (List Ev)
  | [] => .ok []
  | .sub ds evs :: r =>
    if ds.any Dir.isBind then (bindUnbound q b r).map (.sub ds evs :: ·)
    else match bindUnbound q b evs with
      | .error e => .error e
      | .ok evs' => (bindUnbound q b r).map (.sub ds evs' :: ·)
  | .start t a :: r =>
    if t ≠ q ∨ a.any (fun p => p.1 == q) then (bindUnbound q b r).map (.start t a :: ·)
    else match _h : takeTag q 1 r with
      | .none => .error .index
      | some (inner, rest) => match bindUnbound q b inner with
        | .error e => .error e
        | .ok inner' => (bindUnbound q b rest).map (.sub [.bind (some b)] (.start t a :: inner') :: ·)
  | .stop t :: r => (bindUnbound q b r).map (.stop t :: ·)
  | .text s f :: r => (bindUnbound q b r).map (.text s f :: ·)
  | .shown s f :: r => (bindUnbound q b r).map (.shown s f :: ·)
  | .raises e :: r => (bindUnbound q b r).map (.raises e :: ·)
  | .stream evs :: r => (bindUnbound q b r).map (.stream evs :: ·)
  | .other n :: r => (bindUnbound q b r).map (.other n :: ·)
termination_by evs => sizeOf evs
decreasing_by
  all_goals (try simp_wf)
  all_goals (try omega)
  all_goals
    have := takeTag_sizeOf (by assumption)
    omega

/-- the new attributes: the pairs in their order are put in, then the plain ones that are gone are removed [out/genshi.py:296-304] -/
def mergeAttrs (cur : GAttrs) (m : Attrs) : GAttrs :=
  let put := (sortAttrs m).foldl (fun a p => attrsPut a ⟨.none, p.1⟩ (.val p.2)) cur
  (cur.filter fun p => decide (p.1.ns = .none) && (dictGet m p.1.loc).isNone).foldl (fun a p => attrsDel a p.1) put

/-- the contents handed to the transforms, flatland/out/genshi.py:269-272: None, a text, or the stream (an object to them) -/
def tagContents (rest : List Ev) : Except PyErr (HtmlVal × List Ev) :=
  if rest.length = 1 then .ok (.none, [])
  else match simplify rest.dropLast with
    | .error e => .error e
    | .ok (.text s) => .ok (.text s, [])
    | .ok (.events l) => .ok (.obj 0, l)

/-- the contents the transforms gave back, as events [out/genshi.py:291-294]; a stream comes back as it was.  Simplified: filters leave a
text, the stream or None. -/
def newContents (c : HtmlVal) (l : List Ev) : Except PyErr (List Ev) :=
  match c with
  | .none => .ok []
  | .text s => .ok [.text s false]
  | .markup s => .ok [.text s true]
  | .obj 0 => .ok l
  | _ => .error .type

/-- the options of a bound select are bound, too [out/genshi.py:307-312] -/
def bindOptions (tag : QN) (bound : Option Bind) (new : List Ev) : Except PyErr (List Ev) :=
  match bound with
  | some b => if new ≠ [] ∧ tag.loc = "select".toList then bindUnbound ⟨tag.ns, "option".toList⟩ b new else .ok new
  | .none => .ok new

/-- `_rewrite_stream`, flatland/out/genshi.py:261-315: the topmost frame of the render context and the stream afterwards.  Simplified: when
the stream does not start with a tag, unpacking its first event fails, here always with a ValueError. -/
def rewriteStream [Runtime] [Casing] (fs : List TagFilter) (ds : List Dir) (bound : Option Bind) (frame : OptFrame) (stream : List Ev) :
    Except PyErr (OptFrame × List Ev) := do
  let m ← inject [] ds
  match stream with
  | .start tag attrs :: rest => do
    let (contents, l) ← tagContents rest
    let (cur, m) ← plainAttrs attrs m attrs
    let s ← transformTag fs tag.loc bound ⟨m, contents, frame⟩
    let new ← newContents s.contents l
    let new ← bindOptions tag bound new
    let head := Ev.start tag (mergeAttrs cur s.attrs)
    .ok (s.frame, if new = [] then head :: rest else head :: new ++ rest.getLast?.toList)
  | _ => .error .value

/-! ### rendering -/

/-- `RenderContextManipulator.__init__`, flatland/out/genshi.py:193-202: the options from the attributes of a `form:with` or `form:set` tag.
Simplified: `int` reads an optional sign and ASCII digits. -/
def contextOptions (int : PStr → Option Int) : List (PStr × PStr) → Except PyErr (List (PStr × HtmlVal))
  | [] => .ok []
  | (k, v) :: r =>
    if toContext k = kTabindex then
      match int v with
      | some i => (contextOptions int r).map ((kTabindex, .int i) :: ·)
      | .none => .error .value
    else (contextOptions int r).map ((toContext k, .text v) :: ·)

/-- what is being rendered: a stream, or a stream with directives still to be applied to it [Genshi's `_flatten` and `_apply_directives`,
no code here; used at out/genshi.py:60, 225] -/
inductive Job where
  | flat (evs : List Ev)
  | apply (ds : List Dir) (evs : List Ev)

/-- the attributes as they go out: interpolations are joined [Genshi's `_flatten`, no code here] -/
def flatAttrs : GAttrs → Except PyErr GAttrs
  | [] => .ok []
  | (q, .val v) :: r => (flatAttrs r).map ((q, .val v) :: ·)
  | (q, .parts ps) :: r => match joinPieces ps with
    | .ok s => (flatAttrs r).map ((q, .val (.text s)) :: ·)
    | .error e => .error e

/-- The directives a local directive is started with, and whether it is started at all: with directives of others behind it, it lets them
go first. `EvaluatedLast.__call__`, flatland/out/genshi.py:50-61. -/
def evaluatedLast (d : Dir) (ds : List Dir) : Option (List Dir) :=
  let loc := ds.filter Dir.isLocal
  let frn := ds.filter fun d => !d.isLocal
  if frn = [] then .none else some (frn ++ d :: loc)

/-- Rendering: `Renders fs c job c' r` says that the job, started with the render context `c`, ends with the context `c'` and gives the
events `r` or raises.  The rules for directives are `process` of flatland/out/genshi.py:115-121 (control attributes), 180-187 (bind), 209-227
(with), 234-241 (set); the others are Genshi's. -/
inductive Renders [Runtime] [Casing] (fs : List TagFilter) : Ctx → Job → Ctx → Except PyErr (List Ev) → Prop where
  | nil (c) : Renders fs c (.flat []) c (.ok [])
  | text (c c' s b r res) : Renders fs c (.flat r) c' res → Renders fs c (.flat (.text s b :: r)) c' (res.map (.text s b :: ·))
  | stop (c c' t r res) : Renders fs c (.flat r) c' res → Renders fs c (.flat (.stop t :: r)) c' (res.map (.stop t :: ·))
  | other (c c' n r res) : Renders fs c (.flat r) c' res → Renders fs c (.flat (.other n :: r)) c' (res.map (.other n :: ·))
  | shown (c c' s b r res) : Renders fs c (.flat r) c' res → Renders fs c (.flat (.shown s b :: r)) c' (res.map (.text s b :: ·))
  | raises (c e r) : Renders fs c (.flat (.raises e :: r)) c (.error e)
  | stream (c c' evs r res) : Renders fs c (.flat (evs ++ r)) c' res → Renders fs c (.flat (.stream evs :: r)) c' res
  | start (c c' t a a' r res) : flatAttrs a = .ok a' → Renders fs c (.flat r) c' res →
      Renders fs c (.flat (.start t a :: r)) c' (res.map (.start t a' :: ·))
  | startRaises (c t a e r) : flatAttrs a = .error e → Renders fs c (.flat (.start t a :: r)) c (.error e)
  | sub (c c₁ c' ds evs o r res) : Renders fs c (.apply ds evs) c₁ (.ok o) → Renders fs c₁ (.flat r) c' res →
      Renders fs c (.flat (.sub ds evs :: r)) c' (res.map (o ++ ·))
  | subRaises (c c₁ ds evs e r) : Renders fs c (.apply ds evs) c₁ (.error e) → Renders fs c (.flat (.sub ds evs :: r)) c₁ (.error e)
  | applied (c c' evs res) : Renders fs c (.flat evs) c' res → Renders fs c (.apply [] evs) c' res
  | never (c ds evs) : Renders fs c (.apply (.foreign 0 :: ds) evs) c (.ok [])
  | again (c c₁ c' n ds evs o res) : Renders fs c (.apply ds evs) c₁ (.ok o) → Renders fs c₁ (.apply (.foreign n :: ds) evs) c' res →
      Renders fs c (.apply (.foreign (n + 1) :: ds) evs) c' (res.map (o ++ ·))
  | againRaises (c c₁ n ds evs e) : Renders fs c (.apply ds evs) c₁ (.error e) →
      Renders fs c (.apply (.foreign (n + 1) :: ds) evs) c₁ (.error e)
  | later (c c' d ds ds' evs res) : d.isLocal = true → evaluatedLast d ds = some ds' → Renders fs c (.apply ds' evs) c' res →
      Renders fs c (.apply (d :: ds) evs) c' res
  | bind (c c' b ds evs frame evs' res) : evaluatedLast (.bind b) ds = .none → rewriteStream fs ds b c.top evs = .ok (frame, evs') →
      Renders fs { c with top := frame } (.flat evs') c' res → Renders fs c (.apply (.bind b :: ds) evs) c' res
  | bindRaises (c b ds evs e) : evaluatedLast (.bind b) ds = .none → rewriteStream fs ds b c.top evs = .error e →
      Renders fs c (.apply (.bind b :: ds) evs) c (.error e)
  | control (c c' name ps ds evs frame evs' res) : evaluatedLast (.control name ps) ds = .none →
      rewriteStream fs (.control name ps :: ds) .none c.top evs = .ok (frame, evs') →
      Renders fs { c with top := frame } (.flat evs') c' res → Renders fs c (.apply (.control name ps :: ds) evs) c' res
  | controlRaises (c name ps ds evs e) : evaluatedLast (.control name ps) ds = .none →
      rewriteStream fs (.control name ps :: ds) .none c.top evs = .error e → Renders fs c (.apply (.control name ps :: ds) evs) c (.error e)
  | withOpts (c c₁ c₂ attrs evs o) : (Ctx.mk c.top (c.top :: c.below)).update attrs = (c₁, .none) → Renders fs c₁ (.flat evs) c₂ (.ok o) →
      c₂.pop.2 = .none → Renders fs c (.apply [.withOpts attrs] evs) c₂.pop.1 (.ok o)
  | withRaises (c c₁ c₂ attrs evs e) : (Ctx.mk c.top (c.top :: c.below)).update attrs = (c₁, .none) →
      Renders fs c₁ (.flat evs) c₂ (.error e) → Renders fs c (.apply [.withOpts attrs] evs) c₂ (.error e)
  | withRefused (c c₁ attrs ds evs e) : evaluatedLast (.withOpts attrs) ds = .none →
      (Ctx.mk c.top (c.top :: c.below)).update attrs = (c₁, some e) → Renders fs c (.apply (.withOpts attrs :: ds) evs) c₁ (.error e)
  | withMore (c c₁ attrs d ds evs) : evaluatedLast (.withOpts attrs) (d :: ds) = .none →
      (Ctx.mk c.top (c.top :: c.below)).update attrs = (c₁, .none) → Renders fs c (.apply (.withOpts attrs :: d :: ds) evs) c₁ (.error .assertion)
  | setOpts (c c₁ c' attrs evs res) : c.update attrs = (c₁, .none) → Renders fs c₁ (.flat evs) c' res →
      Renders fs c (.apply [.setOpts attrs] evs) c' res
  | setRefused (c c₁ attrs ds evs e) : evaluatedLast (.setOpts attrs) ds = .none → c.update attrs = (c₁, some e) →
      Renders fs c (.apply (.setOpts attrs :: ds) evs) c₁ (.error e)
  | setMore (c c₁ attrs d ds evs) : evaluatedLast (.setOpts attrs) (d :: ds) = .none → c.update attrs = (c₁, .none) →
      Renders fs c (.apply (.setOpts attrs :: d :: ds) evs) c₁ (.error .assertion)

end Flatland
