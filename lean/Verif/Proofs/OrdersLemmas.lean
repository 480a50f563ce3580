/-
Loading with other iteration orders of the server's hash maps, and other hash codes of objects.
-/
import Verif.Proofs.PodLemmas
import Verif.Props.C16

namespace Limabean

open Clj

variable {E : Ext} {L : BookLib}

/-! ### Hash codes of objects -/

namespace Clj

/-- The world, with hash codes in place of the identities. -/
def World.hashed (hash : Nat → Nat) (w : World) : World := { w with known := w.known.map hash }

theorem contains_hashed {hash : Nat → Nat} (hi : Function.Injective hash) (l : List Nat) (n : Nat) :
    (l.map hash).contains (hash n) = l.contains (id n) := by
  rw [Bool.eq_iff_iff]
  simp [hi.eq_iff]

variable {hash : Nat → Nat} (hi : Function.Injective hash) (valid : Data → Bool) (phase : Option Str)

include hi in
theorem tagUnseen_hashed (tag : Data → Option Data) (w : World) (o : Obj) :
    tagUnseen hash valid tag (w.hashed hash) o = (tagUnseen id valid tag w o).map fun x => (x.1.hashed hash, x.2) := by
  unfold tagUnseen
  rw [show (w.hashed hash).known = w.known.map hash from rfl, contains_hashed hi]
  split
  · rfl
  · cases tag o.data with
    | none => rfl
    | some d =>
      dsimp only
      split <;> rfl

include hi in
theorem meetUnseen_hashed (w : World) (o : Obj) :
    meetUnseen hash valid (w.hashed hash) o = (meetUnseen id valid w o).map (World.hashed hash) := by
  unfold meetUnseen
  rw [show (w.hashed hash).known = w.known.map hash from rfl, contains_hashed hi]
  split
  · rfl
  · split <;> rfl

theorem outObj_hashed (got : List Obj) (w : World) (x : Out) :
    outObj got (w.hashed hash) x = (outObj got w x).map fun y => (y.1.hashed hash, y.2) := by
  cases x with
  | old i => simp only [outObj]; cases got[i]? <;> rfl
  | new d => rfl
  | throws m => rfl

include hi in
theorem feed_hashed (tag : Data → Option Data) (got : List Obj) {sink sink' : World → Obj → Option World}
    (hs : ∀ w o, sink (w.hashed hash) o = (sink' w o).map (World.hashed hash)) (l : List Out) (w : World) :
    feed hash valid tag got sink l (w.hashed hash) = (feed id valid tag got sink' l w).map (World.hashed hash) := by
  induction l generalizing w with
  | nil => rfl
  | cons x l ih =>
    simp only [feed, outObj_hashed]
    cases outObj got w x with
    | none => rfl
    | some y =>
      simp only [Option.map_some, Option.bind_eq_bind, Option.bind_some, tagUnseen_hashed hi]
      cases tagUnseen id valid tag y.1 y.2 with
      | none => rfl
      | some z =>
        simp only [Option.map_some, Option.bind_some, hs]
        cases sink' z.1 z.2 with
        | none => rfl
        | some w' => simp only [Option.map_some, Option.bind_some, ih]

include hi in
theorem push_hashed (ps : List Plugin) (n : Nat) (w : World) (o : Obj) :
    push hash valid phase n ps (w.hashed hash) o = (push id valid phase n ps w o).map (World.hashed hash) := by
  induction ps generalizing n w o with
  | nil => rfl
  | cons p ps ih => exact feed_hashed hi valid _ _ (fun w o => ih (n + 1) w o) _ (w.receive n o)

include hi in
theorem complete_hashed (ps : List Plugin) (n : Nat) (w : World) :
    complete hash valid phase n ps (w.hashed hash) = (complete id valid phase n ps w).map (World.hashed hash) := by
  induction ps generalizing n w with
  | nil => rfl
  | cons p ps ih =>
    have := feed_hashed hi valid (provenanceTag p.name phase) (w.received n) (push_hashed hi valid phase ps (n + 1))
      (p.finish ((w.received n).map Obj.data)) w
    simp only [complete]
    rw [show (w.hashed hash).received = w.received from rfl, this]
    cases feed id valid (provenanceTag p.name phase) (w.received n) (push id valid phase (n + 1) ps)
      (p.finish ((w.received n).map Obj.data)) w with
    | none => rfl
    | some w' => simp only [Option.map_some, Option.bind_eq_bind, Option.bind_some, ih]

include hi in
theorem pushAll_hashed (ps : List Plugin) (os : List Obj) (w : World) :
    pushAll hash valid phase ps os (w.hashed hash) = (pushAll id valid phase ps os w).map (World.hashed hash) := by
  induction os generalizing w with
  | nil => rfl
  | cons o os ih =>
    simp only [pushAll, meetUnseen_hashed hi]
    cases meetUnseen id valid w o with
    | none => rfl
    | some w' =>
      simp only [Option.map_some, Option.bind_eq_bind, Option.bind_some, push_hashed hi]
      cases push id valid phase 0 ps w' o with
      | none => rfl
      | some w'' => simp only [Option.map_some, Option.bind_some, ih]

include hi in
/-- Plugins do the same whatever the hash codes are, as long as they differ. -/
theorem runPlugins_hashed (ps : List Plugin) (next : Nat) (ds : List Obj) :
    runPlugins hash valid phase ps next ds = runPlugins id valid phase ps next ds := by
  have h : ∀ w0 : World, w0.hashed hash = w0 → ((pushAll hash valid phase ps ds w0).bind fun w => (complete hash valid phase 0 ps w).bind
      fun w => some w.out) = (pushAll id valid phase ps ds w0).bind fun w => (complete id valid phase 0 ps w).bind fun w => some w.out := by
    intro w0 h0
    have := pushAll_hashed hi valid phase ps ds w0
    rw [h0] at this
    rw [this]
    cases pushAll id valid phase ps ds w0 with
    | none => rfl
    | some w =>
      simp only [Option.map_some, Option.bind_some, complete_hashed hi]
      cases complete id valid phase 0 ps w <;> rfl
  exact h _ rfl

end Clj

/-! ### The server -/

/-- The responses are the same up to the order of the reports of booking. -/
inductive ResponseLike : Response → Response → Prop
  | same (r) : ResponseLike r r
  | spanned (id) {l l' : List Report} : l.Perm l' → ResponseLike (Server.errorReports id l) (Server.errorReports id l')
  | indexed (id) {l l' : List IndexedReport} : l.Perm l' →
      ResponseLike (Server.indexedErrorReports id l) (Server.indexedErrorReports id l')

/-- Both panic, or both answer. -/
inductive AnsweredLike {A : Type} : Option (A × Response) → Option (A × Response) → Prop
  | panics : AnsweredLike none none
  | answers (s) {r r'} : ResponseLike r r' → AnsweredLike (some (s, r)) (some (s, r'))

theorem all_permuted {α β : Type} (f : α → Option β) {l l' : List α} (h : l.Perm l') :
    (Json.all f l = none ∧ Json.all f l' = none) ∨ ∃ m m', Json.all f l = some m ∧ Json.all f l' = some m' ∧ m.Perm m' := by
  induction h with
  | nil => exact .inr ⟨[], [], rfl, rfl, .nil⟩
  | cons x _ ih =>
    rcases ih with ⟨h1, h2⟩ | ⟨m, m', h1, h2, h3⟩
    · exact .inl ⟨by simp only [Json.all, h1]; cases f x <;> rfl, by simp only [Json.all, h2]; cases f x <;> rfl⟩
    · cases hx : f x with
      | none => exact .inl ⟨by simp [Json.all, hx], by simp [Json.all, hx]⟩
      | some y => exact .inr ⟨y :: m, y :: m', by simp [Json.all, hx, h1], by simp [Json.all, hx, h2], h3.cons y⟩
  | swap x y l =>
    cases hx : f x with
    | none =>
      exact .inl ⟨by simp only [Json.all, hx]; cases f y <;> rfl, by simp only [Json.all, hx]⟩
    | some a =>
      cases hy : f y with
      | none => refine .inl ⟨?_, ?_⟩ <;> simp [Json.all, hy, hx]
      | some b =>
        cases hl : Json.all f l with
        | none => refine .inl ⟨?_, ?_⟩ <;> simp [Json.all, hy, hx, hl]
        | some m => exact .inr ⟨b :: a :: m, a :: b :: m, by simp [Json.all, hy, hx, hl], by simp [Json.all, hy, hx, hl], .swap ..⟩
  | trans _ _ ih ih' =>
    rcases ih with ⟨h1, h2⟩ | ⟨m, m', h1, h2, h3⟩ <;> rcases ih' with ⟨h4, h5⟩ | ⟨n, n', h4, h5, h6⟩
    · exact .inl ⟨h1, h5⟩
    · rw [h2] at h4; cases h4
    · rw [h2] at h4; cases h4
    · rw [h2] at h4
      cases h4
      exact .inr ⟨m, n', h1, h5, h3.trans h6⟩

section
variable {order order' : AMap Str (Account L) → AMap Str (Account L)} (hf : ∀ m, (order m).Perm m) (hf' : ∀ m, (order' m).Perm m)

include hf hf' in
theorem bookRequest_like (id : Option Id) (params : Option (List Raw.Directive)) (parsed : Except (List ParserError) Parsed) :
    (Server.bookRequest E L order id params parsed = none ∧ Server.bookRequest E L order' id params parsed = none) ∨
      ∃ r r', Server.bookRequest E L order id params parsed = some r ∧ Server.bookRequest E L order' id params parsed = some r' ∧
        ResponseLike r r' := by
  cases parsed with
  | error es => exact .inr ⟨_, _, rfl, rfl, .same _⟩
  | ok p =>
    have := C16_order_independent L order order' hf hf' (Server.bookOptions p.options) (params.getD p.directives)
    simp only [Server.bookRequest]
    cases h1 : book L order (Server.bookOptions p.options) (params.getD p.directives) <;>
      cases h2 : book L order' (Server.bookOptions p.options) (params.getD p.directives) <;> rw [h1, h2] at this <;>
      simp only [SameOutcome] at this <;> dsimp only
    · rw [this.1]
      exact .inr ⟨_, _, rfl, rfl, .same _⟩
    · rename_i es es'
      have hp : es.Perm es' := by
        obtain ⟨a, b, b', rfl, rfl, h, -⟩ := this
        exact h.append_left a
      split
      · rcases all_permuted (Server.resolveReport E (params.getD p.directives)) hp with ⟨h3, h4⟩ | ⟨m, m', h3, h4, h5⟩
        · simp only [Server.resolveReports, h3, h4]
          exact .inl ⟨rfl, rfl⟩
        · simp only [Server.resolveReports, h3, h4]
          exact .inr ⟨_, _, rfl, rfl, .spanned _ h5⟩
      · exact .inr ⟨_, _, rfl, rfl, .indexed _ hp⟩
    · exact .inl ⟨rfl, rfl⟩

include hf hf' in
theorem dispatch_like (s : Server E) (line : Server.Line) :
    AnsweredLike (Server.dispatch E L order s line) (Server.dispatch E L order' s line) := by
  cases line with
  | notText => exact .panics
  | garbage e => exact .answers _ (.same _)
  | json j =>
    simp only [Server.dispatch]
    cases Wire.decRequest j with
    | none => exact .answers _ (.same _)
    | some r =>
      simp only [Server.answer]
      split
      · exact .answers _ (.same _)
      · cases s with
        | unreadable m => exact .answers _ (.same _)
        | ready src parsed =>
          dsimp only
          cases hm : r.method with
          | book ds =>
            simp only [Server.healthy]
            rcases bookRequest_like (E := E) hf hf' r.id ds parsed with ⟨h1, h2⟩ | ⟨a, b, h1, h2, h3⟩
            · rw [h1, h2]
              exact .panics
            · rw [h1, h2]
              exact .answers _ h3
          | _ =>
            simp only [Server.healthy]
            generalize Option.map (fun x : E.Sources × Response => (Server.ready x.1 parsed, x.2)) _ = z
            cases z with
            | none => exact .panics
            | some z => exact .answers _ (.same _)

/-- Other requests than for booking do not look at hash maps. -/
theorem dispatch_other (s : Server E) {j : Json} (h : ∀ r, Wire.decRequest j = some r → ∀ ds, r.method ≠ .book ds) :
    Server.dispatch E L order s (.json j) = Server.dispatch E L order' s (.json j) := by
  simp only [Server.dispatch]
  cases hj : Wire.decRequest j with
  | none => rfl
  | some r =>
    have := h r hj
    simp only [Server.answer]
    split
    · rfl
    · cases s with
      | unreadable m => rfl
      | ready src parsed =>
        dsimp only
        cases hm : r.method with
        | book ds => exact absurd hm (this ds)
        | _ => rfl

end

/-! ### The client -/

namespace Clj

/-- The same front end with other iteration orders of the server's hash maps and other hash codes. -/
def Front.other (F : Front E L) (orders : Nat → AMap Str (Account L) → AMap Str (Account L)) (hash : Nat → Nat) : Front E L :=
  { F with orders := orders, hash := hash }

theorem message_method {ordm : List (Str × Json) → List (Str × Json)} (ho : IsMapOrder ordm) {m : Str} (hm : m ≠ str% "book") (p : Data)
    (id : Nat) {r : Request} (h : Wire.decRequest (toJson ordm (message m p id)) = some r) (ds : Option (List Raw.Directive)) :
    r.method ≠ .book ds := by
  have hfield : Json.field (ordm ((([(str% "method", Data.str m)] ++ (if p.truthy then [(str% "params", p)] else []) ++
      [(str% "id", Data.num ⟨(id : Int), 0⟩), (str% "jsonrpc", .str (str% "2.0"))]).map fun q => (q.1, toJson ordm q.2)))) =
        Json.field (requestEntries ordm m p id) := by
    rw [field_perm ?_ (ho _)]
    · unfold requestEntries
      split <;> simp [toJson]
    · split <;> simp
  simp only [message, toJson, entriesToJson_eq, Wire.decRequest, Option.bind_eq_bind, Option.bind_eq_some_iff, Option.pure_def,
    Option.some.injEq] at h
  obtain ⟨_, -, _, -, x, hx, rfl⟩ := h
  dsimp only
  rintro rfl
  simp only [Wire.decMethod, Json.req, Json.opt, hfield, method_field, Json.toStr] at hx
  simp only [ite_eq_iff, hm, false_and, false_or, Option.map_eq_some_iff, reduceCtorEq, and_false, exists_false, Option.some.injEq] at hx

variable (F : Front E L) (ho : IsMapOrder F.ordm) (orders : Nat → AMap Str (Account L) → AMap Str (Account L)) (hash : Nat → Nat)

include ho in
theorem invoke_other (pod : Pod E) {m : Str} (hm : m ≠ str% "book") (p : Data) :
    pod.invoke (F.other orders hash) m p = pod.invoke F m p := by
  have : ∀ pod : Pod E, pod.write (F.other orders hash) (toJson F.ordm (message m p pod.nextId)) =
      pod.write F (toJson F.ordm (message m p pod.nextId)) := by
    intro pod
    unfold Pod.write
    cases pod.server with
    | none => rfl
    | some s =>
      dsimp only
      unfold lineOf
      by_cases hl : JsonText.nesting (toJson F.ordm (message m p pod.nextId)) < 128
      · simp only [if_pos hl]
        rw [dispatch_other (order := (F.other orders hash).orders pod.served) (order' := F.orders pod.served) s
          (fun r hr ds => message_method ho hm p _ hr ds)]
      · simp only [if_neg hl]
        rfl
  have h := this { pod with nextId := pod.nextId + 1 }
  unfold Pod.invoke
  dsimp only at h ⊢
  rw [show (F.other orders hash).ordm = F.ordm from rfl, h]
  rfl

theorem invoke_same_quiet {pod : Pod E} (h : pod.written = []) (m : Str) (p : Data) : (pod.invoke F m p).1.written = [] := by
  unfold Pod.invoke Pod.write
  obtain ⟨n, s, k, w⟩ := pod
  cases h
  cases s with
  | none => rfl
  | some s =>
    dsimp only
    split <;> rfl

/-- What the client makes of the answers is the same up to the order of the reports of booking. -/
inductive MappedLike : Option Mapped → Option Mapped → Prop
  | same (x) : MappedLike x x
  | spanned {l l' : List Data} : l.Perm l' → MappedLike (some { spanned := .vec l }) (some { spanned := .vec l' })
  | indexed {l l' : List Data} : l.Perm l' → MappedLike (some { indexed := .vec l }) (some { indexed := .vec l' })

theorem book_like (hf : ∀ n m, (F.orders n m).Perm m) (hf' : ∀ n m, (orders n m).Perm m) {pod : Pod E} (h : pod.written = [])
    (ds : Option (List Data)) :
    (pod.book (F.other orders hash) ds).1 = (pod.book F ds).1 ∧ MappedLike (pod.book F ds).2 (pod.book (F.other orders hash) ds).2 := by
  obtain ⟨n, s, k, w⟩ := pod
  cases h
  unfold Pod.book Pod.invoke Pod.write
  cases s with
  | none => exact ⟨rfl, .same _⟩
  | some s =>
    dsimp only
    rw [show (F.other orders hash).ordm = F.ordm from rfl, show (F.other orders hash).ord = F.ord from rfl,
      show (F.other orders hash).orders = orders from rfl]
    have := dispatch_like (E := E) (L := L) (hf k) (hf' k) s
      (lineOf E (toJson F.ordm (message (str% "book") (match ds with | some l => .vec l | none => .nil) (n + 1))))
    generalize Server.dispatch E L (F.orders k) s _ = x at this ⊢
    generalize Server.dispatch E L (orders k) s _ = y at this ⊢
    cases this with
    | panics => exact ⟨rfl, .same _⟩
    | answers s hr =>
      refine ⟨rfl, ?_⟩
      dsimp only [Pod.read, List.nil_append]
      cases hr with
      | same r => exact .same _
      | spanned id hp =>
        rw [answer_reports, answer_reports]
        exact .spanned (hp.map _)
      | indexed id hp =>
        rw [answer_indexed, answer_indexed]
        exact .indexed (hp.map _)

/-! ### The stages -/

include ho in
theorem start_other (s : Server E) : Pod.start (F.other orders hash) s = Pod.start F s := by
  unfold Pod.start
  rw [invoke_other F ho orders hash _ (by decide)]

include ho in
theorem getPluginsAndOptions_other : getPluginsAndOptions (F.other orders hash) = getPluginsAndOptions F := by
  funext m
  unfold getPluginsAndOptions Pod.plugins Pod.options
  simp only [invoke_other F ho orders hash _ (m := str% "parser.plugins") (by decide),
    invoke_other F ho orders hash _ (m := str% "parser.options") (by decide)]
  rfl

include ho in
theorem getRawDirectives_other : getRawDirectives (F.other orders hash) = getRawDirectives F := by
  funext m
  unfold getRawDirectives Pod.directives
  simp only [invoke_other F ho orders hash _ (m := str% "parser.directives") (by decide)]

include ho in
theorem createSpans_other (pod : Pod E) (rs : List SyntheticSpan) : pod.createSpans (F.other orders hash) rs = pod.createSpans F rs := by
  unfold Pod.createSpans
  rw [invoke_other F ho orders hash _ (by decide)]

include ho in
theorem mergeWithPod_other (pod : Pod E) (ds : List Data) : mergeWithPod (F.other orders hash) pod ds = mergeWithPod F pod ds := by
  unfold mergeWithPod
  simp only [createSpans_other F ho orders hash]
  rfl

include ho in
theorem runPluginsStage_other (hi : Function.Injective F.hash) (hi' : Function.Injective hash) (raw : Bool) :
    runPluginsStage (F.other orders hash) raw = runPluginsStage F raw := by
  funext m
  unfold runPluginsStage transformed
  simp only [mergeWithPod_other F ho orders hash, runPlugins_hashed hi, show (F.other orders hash).hash = hash from rfl,
    runPlugins_hashed hi']
  rfl

theorem setRegistry_other : setRegistry (F.other orders hash) = setRegistry F := rfl

theorem getPluginsAndOptions_quiet {m m' : LoadedBeans E} (h : m.pod.written = []) (hm : getPluginsAndOptions F m = .ok m') :
    m'.pod.written = [] := by
  unfold getPluginsAndOptions Pod.plugins Pod.options at hm
  dsimp only at hm
  have h1 := invoke_same_quiet F h (str% "parser.plugins") .nil
  have h2 := invoke_same_quiet F h1 (str% "parser.options") .nil
  split at hm
  · cases hm
  · rename_i heq
    obtain rfl := (Prod.mk.inj heq).1
    split at hm
    · split at hm
      · cases hm
      · rename_i heq
        obtain rfl := (Prod.mk.inj heq).1
        cases hm
        exact h2
    · cases hm
      exact h1

theorem getRawDirectives_quiet {m m' : LoadedBeans E} (h : m.pod.written = []) (hm : getRawDirectives F m = .ok m') :
    m'.pod.written = [] := by
  unfold getRawDirectives Pod.directives at hm
  dsimp only at hm
  have h1 := invoke_same_quiet F h (str% "parser.directives") .nil
  split at hm
  · cases hm
  · rename_i heq
    obtain rfl := (Prod.mk.inj heq).1
    split at hm
    · cases hm
      exact h1
    · cases hm

theorem mergeWithPod_quiet {pod : Pod E} (h : pod.written = []) (ds : List Data) : (mergeWithPod F pod ds).1.written = [] := by
  unfold mergeWithPod
  dsimp only
  split
  · exact h
  · exact invoke_same_quiet F h _ _

theorem transformed_quiet {pod : Pod E} (h : pod.written = []) (raw : Bool) (ps : List Plugin) (ds : List Data) :
    (transformed F raw ps pod ds).1.written = [] := by
  unfold transformed
  split
  · exact h
  · exact mergeWithPod_quiet F h _

theorem runPluginsStage_quiet {m m' : LoadedBeans E} (raw : Bool) (h : m.pod.written = []) (hm : runPluginsStage F raw m = .ok m') :
    m'.pod.written = [] := by
  unfold runPluginsStage at hm
  dsimp only at hm
  split at hm
  · cases hm
    exact h
  · have h1 := transformed_quiet F h raw (pluginsOfKind raw (m.plugins.getD []))
      ((if raw then m.rawDirectives else m.bookedDirectives).getD [])
    split at hm
    · rename_i heq
      rw [heq] at h1
      cases hm
      exact h1
    · rename_i heq
      rw [heq] at h1
      cases hm
      exact h1

end Clj

end Limabean
