import Verif.Real
import Verif.Eff
/-!
# C64, C65: files and directories mapped from the real filesystem
-/

namespace Verif
open Py
namespace Real

/-! ## C64: a mapped file is a snapshot taken when it is first looked into -/

/-- a change of the real filesystem or a look at the contents, no change of the fake file -/
def Ev.passive : Ev → Prop
  | .world _ => True
  | .access => True
  | _ => False

def Ev.isWorld : Ev → Prop
  | .world _ => True
  | _ => False

theorem loaded_run (es : List Ev) : ∀ {w : World} {m : Mapped}, m.loaded = true → (∀ e ∈ es, e.passive) →
    (run w m es).2.2 = m ∧ ∀ o ∈ (run w m es).1, o = .ok m.contents ∨ o = .error (.os .ENOENT) := by
  induction es with
  | nil => intro w m _ _; exact ⟨rfl, fun o ho => by simp [run] at ho⟩
  | cons e es ih =>
    intro w m hl he
    have hstep : (step w m e).2.2 = m ∧ ∀ o ∈ (step w m e).1.toList, o = .ok m.contents ∨ o = .error (.os .ENOENT) := by
      cases e with
      | world w' => exact ⟨rfl, fun o ho => by simp [step] at ho⟩
      | access =>
        simp only [step, access, hl]
        cases w m.src with
        | none => exact ⟨rfl, fun o ho => Or.inr (by simpa using ho)⟩
        | some f => exact ⟨rfl, fun o ho => Or.inl (by simpa using ho)⟩
      | write b => exact (he (.write b) List.mem_cons_self).elim
      | resize n => exact (he (.resize n) List.mem_cons_self).elim
    have hrec := ih (w := (step w m e).2.1) (m := m) hl (fun x hx => he x (by simp [hx]))
    simp only [run]
    rw [hstep.1]
    refine ⟨hrec.1, fun o ho => ?_⟩
    rcases List.mem_append.mp ho with h | h
    · exact hstep.2 o h
    · exact hrec.2 o h

theorem world_run (es : List Ev) : ∀ {w : World} {m : Mapped}, (∀ e ∈ es, e.isWorld) →
    (run w m es).2.2 = m ∧ (run w m es).1 = [] := by
  induction es with
  | nil => intro w m _; exact ⟨rfl, rfl⟩
  | cons e es ih =>
    intro w m he
    cases e with
    | world w' =>
      have := ih (w := w') (m := m) (fun x hx => he x (by simp [hx]))
      simpa [run, step] using this
    | access => exact (he .access List.mem_cons_self).elim
    | write b => exact (he (.write b) List.mem_cons_self).elim
    | resize n => exact (he (.resize n) List.mem_cons_self).elim

/-- C64: mapping fails iff the real file does not exist. -/
theorem add_real_missing (w : World) (src : Str) (ro : Bool) :
    (∃ e, addFile w src ro = .error e) ↔ w src = none := by
  unfold addFile
  cases w src <;> simp

/-- C64: however the real file changes between mapping and the first look (`es1`) and after it (`es2`), every look gives the
contents the real file had at the time of the first look, or fails because the real file is gone. -/
theorem mapped_snapshot {w0 : World} {src : Str} {ro : Bool} {m : Mapped} (hadd : addFile w0 src ro = .ok m)
    (es1 es2 : List Ev) (h1 : ∀ e ∈ es1, e.isWorld) (h2 : ∀ e ∈ es2, e.passive) {f : RFile}
    (hf : (run w0 m es1).2.1 src = some f) :
    (access (run w0 m es1).2.1 (run w0 m es1).2.2).1 = .ok (some f.bytes) ∧
    ∀ o ∈ (run (run w0 m es1).2.1 (access (run w0 m es1).2.1 (run w0 m es1).2.2).2 es2).1,
      o = .ok (some f.bytes) ∨ o = .error (.os .ENOENT) := by
  have hm : m.loaded = false ∧ m.src = src := by
    unfold addFile at hadd
    split at hadd
    · simp at hadd
    · injection hadd with hadd; subst hadd; exact ⟨rfl, rfl⟩
  obtain ⟨h3, _⟩ := world_run es1 (w := w0) (m := m) h1
  rw [h3]
  have hacc : access (run w0 m es1).2.1 m = (.ok (some f.bytes), { m with loaded := true, contents := some f.bytes }) := by
    unfold access; rw [hm.1, hm.2, hf]
  rw [hacc]
  exact ⟨rfl, (loaded_run es2 (w := (run w0 m es1).2.1) (m := { m with loaded := true, contents := some f.bytes }) rfl h2).2⟩

/-- C64: once something was written to the fake file, its contents are what was written, whatever the real file does. -/
theorem mapped_written (w : World) (m : Mapped) (b : Bytes) (es : List Ev) (h : ∀ e ∈ es, e.passive) :
    (run w (setContents m b) es).2.2.contents = some b ∧ (run w (setContents m b) es).2.2.size = b.length ∧
    ∀ o ∈ (run w (setContents m b) es).1, o = .ok (some b) ∨ o = .error (.os .ENOENT) := by
  have := loaded_run es (w := w) (m := setContents m b) rfl h
  rw [this.1]
  exact ⟨rfl, rfl, this.2⟩

/-- C64: what `stat` tells about a mapped file - size, mode, owner, times - is what it was when the file was mapped, whatever the
real file does and however often the fake file is read. -/
theorem mapped_stat {w0 : World} {src : Str} {ro : Bool} {m : Mapped} (hadd : addFile w0 src ro = .ok m)
    (es : List Ev) (h : ∀ e ∈ es, e.passive) : ∃ f, w0 src = some f ∧
    (run w0 m es).2.2.size = f.bytes.length ∧ (run w0 m es).2.2.mode = roMode ro f.mode ∧
    (run w0 m es).2.2.uid = f.uid ∧ (run w0 m es).2.2.gid = f.gid ∧
    (run w0 m es).2.2.mtime = f.mtime ∧ (run w0 m es).2.2.ctime = f.ctime := by
  have hkeep : ∀ (es : List Ev) (w : World) (m : Mapped), (∀ e ∈ es, e.passive) →
      ∃ l c, (run w m es).2.2 = { m with loaded := l, contents := c } := by
    intro es
    induction es with
    | nil => intro w m _; exact ⟨_, _, rfl⟩
    | cons e es ih =>
      intro w m he
      have hstep : ∃ l c, (step w m e).2.2 = { m with loaded := l, contents := c } := by
        cases e with
        | world w' => exact ⟨_, _, rfl⟩
        | access =>
          simp only [step, access]
          cases m.loaded <;> cases w m.src <;> exact ⟨_, _, rfl⟩
        | write b => exact (he (.write b) List.mem_cons_self).elim
        | resize n => exact (he (.resize n) List.mem_cons_self).elim
      obtain ⟨l, c, hs⟩ := hstep
      obtain ⟨l', c', hr⟩ := ih (step w m e).2.1 (step w m e).2.2 (fun x hx => he x (by simp [hx]))
      refine ⟨l', c', ?_⟩
      simp only [run]
      rw [hr, hs]
  obtain ⟨l, c, hr⟩ := hkeep es w0 m h
  rw [hr]
  unfold addFile at hadd
  split at hadd
  · simp at hadd
  · rename_i f hf
    injection hadd with hadd; subst hadd
    exact ⟨f, hf, rfl, rfl, rfl, rfl, rfl, rfl⟩

/-- C64: a file mapped read-only has no write and no execute permission, and otherwise the mode of the real file; someone who
is not root cannot open it for writing (`initFileObject` refuses without the owner's write bit). -/
theorem mapped_read_only {w0 : World} {src : Str} {m : Mapped} (hadd : addFile w0 src true = .ok m) :
    m.mode &&& 0o333 = 0 ∧ m.mode &&& PERM_WRITE = 0 ∧ ∃ f, w0 src = some f ∧ m.mode &&& 0o777444 = f.mode &&& 0o777444 := by
  unfold addFile at hadd
  split at hadd
  · simp at hadd
  · rename_i f hf
    injection hadd with hadd; subst hadd
    refine ⟨?_, ?_, f, hf, ?_⟩
    · show f.mode &&& 0o777444 &&& 0o333 = 0
      rw [Nat.and_assoc]; exact Nat.and_zero _
    · show f.mode &&& 0o777444 &&& PERM_WRITE = 0
      rw [Nat.and_assoc]; exact Nat.and_zero _
    · show f.mode &&& 0o777444 &&& 0o777444 = f.mode &&& 0o777444
      rw [Nat.and_assoc, Nat.and_self]

/-- an example: a real file, grown, gone -/
def exFile : RFile := ⟨[1, 2], 0o100644, 0, 0, 5, 5⟩
def exW : World := fun p => if p = ['f'] then some exFile else none
def exGrown : World := fun p => if p = ['f'] then some { exFile with bytes := [1, 2, 3, 4, 5] } else none
def exGone : World := fun _ => none

/-- The theorems above have instances. -/
example : ∃ m, addFile exW ['f'] true = .ok m ∧ m.mode = 0o100444 ∧ (run exW m [.world exGrown]).2.1 ['f'] = some { exFile with bytes := [1, 2, 3, 4, 5] } ∧
    (run exW m [.access, .world exGrown, .access]).1 = [.ok (some [1, 2]), .ok (some [1, 2])] :=
  ⟨_, rfl, by decide +kernel, by decide +kernel, by decide +kernel⟩

/-- Findings: the size is the one at mapping time, the contents those at the first look; contents that were already read
cannot be read while the real file is missing; if the first look fails, later ones give `None`; resizing an unread
file changes only its size; resizing uses the size at mapping time. -/
theorem mapped_counterexamples : ∃ m, addFile exW ['f'] false = .ok m ∧
    (run exW m [.world exGrown, .access]).1 = [.ok (some [1, 2, 3, 4, 5])] ∧ (run exW m [.world exGrown, .access]).2.2.size = 2 ∧
    (run exW m [.access, .world exGone, .access]).1 = [.ok (some [1, 2]), .error (.os .ENOENT)] ∧
    (run exW m [.world exGone, .access, .world exW, .access]).1 = [.error (.os .ENOENT), .ok none] ∧
    (run exW m [.resize 1, .access]).1 = [.ok (some [1, 2])] ∧ (run exW m [.resize 1, .access]).2.2.size = 1 ∧
    (run exW m [.world exGrown, .access, .resize 3, .access]).1 = [.ok (some [1, 2, 3, 4, 5]), .ok (some [1, 2, 3, 4, 5, 0])] :=
  ⟨_, rfl, by decide +kernel, by decide +kernel, by decide +kernel, by decide +kernel, by decide +kernel, by decide +kernel, by decide +kernel⟩

/-! ## C65: a mapped directory looks like the real one -/

/-- the node at a path of the real tree -/
def RNode.at : List Str → RNode → Option RNode
  | [], n => some n
  | c :: cs, .dir _ es => (alookup c es).bind (RNode.at cs)
  | _ :: _, _ => none

/-- what a look at the real tree tells, files with the mode they are mapped with -/
def RNode.seen (ro : Bool) : RNode → Seen
  | .file f => .file f.bytes (roMode ro f.mode)
  | .link t => .link t
  | .dir mode _ => .dir mode

/-- the answer the real tree gives -/
def RNode.look (ro : Bool) (r : RNode) : Look → Seen
  | .stat p => match r.at p with | none => .nothing | some x => x.seen ro
  | .list p => match r.at p with | some (.dir _ es) => .names (es.map Prod.fst) | _ => .nothing

mutual
/-- an image of a real tree in which some directories were loaded -/
inductive Shows (ro : Bool) : LNode → RNode → Prop
  | fresh (r : RNode) : Shows ro (mapNode ro r) r
  | loaded (mode : Nat) {es : List (Str × LNode)} {rs : List (Str × RNode)} (h : ShowsL ro es rs) : Shows ro (.dir mode es) (.dir mode rs)
/-- the same for the entries of a directory -/
inductive ShowsL (ro : Bool) : List (Str × LNode) → List (Str × RNode) → Prop
  | nil : ShowsL ro [] []
  | cons (nm : Str) {x : LNode} {y : RNode} {es : List (Str × LNode)} {rs : List (Str × RNode)} (h : Shows ro x y) (t : ShowsL ro es rs) :
      ShowsL ro ((nm, x) :: es) ((nm, y) :: rs)
end

theorem shows_seen {ro : Bool} {n : LNode} {r : RNode} (h : Shows ro n r) : n.seen = r.seen ro := by
  cases h with
  | fresh r => cases r <;> rfl
  | loaded => rfl

theorem shows_load {ro : Bool} {n : LNode} {r : RNode} (h : Shows ro n r) : Shows ro (load n) r ∧
    ∀ mode rs, r = .dir mode rs → ∃ es, load n = .dir mode es ∧ ShowsL ro es rs := by
  cases h with
  | fresh r =>
    cases r with
    | file f => exact ⟨.fresh (.file f), fun mode rs e => by simp at e⟩
    | link t => exact ⟨.fresh (.link t), fun mode rs e => by simp at e⟩
    | dir mode rs =>
      have : ShowsL ro (rs.map fun e => (e.1, mapNode ro e.2)) rs := by
        induction rs with
        | nil => exact .nil
        | cons a rs ih => exact .cons _ (.fresh _) ih
      refine ⟨.loaded mode this, ?_⟩
      rintro mode' rs' e
      injection e with e1 e2; subst e1; subst e2
      exact ⟨_, rfl, this⟩
  | loaded mode h =>
    refine ⟨.loaded mode h, ?_⟩
    rintro mode' rs' e
    injection e with e1 e2; subst e1; subst e2
    exact ⟨_, rfl, h⟩

theorem shows_notDir {ro : Bool} {n : LNode} {r : RNode} (h : Shows ro n r) (hd : ∀ mode rs, r ≠ .dir mode rs) :
    ∀ mode es, load n ≠ .dir mode es := by
  cases h with
  | fresh r =>
    cases r with
    | file f => intro mode es e; simp [mapNode, load] at e
    | link t => intro mode es e; simp [mapNode, load] at e
    | dir mode rs => exact absurd rfl (hd mode rs)
  | loaded mode h => exact absurd rfl (hd _ _)

theorem forall_alookup {ro : Bool} {es : List (Str × LNode)} {rs : List (Str × RNode)}
    (h : ShowsL ro es rs) (c : Str) :
    (alookup c es = none ∧ alookup c rs = none) ∨ ∃ x y, alookup c es = some x ∧ alookup c rs = some y ∧ Shows ro x y ∧
      ∀ x', Shows ro x' y → ShowsL ro (replaceEntry c x' es) rs := by
  induction es generalizing rs with
  | nil => cases h; exact Or.inl ⟨rfl, rfl⟩
  | cons a es ih =>
    cases h with
    | @cons an ax bx _ rs hs hrest =>
      by_cases hc : an = c
      · subst hc
        refine Or.inr ⟨ax, bx, by simp [alookup], by simp [alookup], hs, fun x' hx' => ?_⟩
        simp only [replaceEntry, if_true]
        exact .cons _ hx' hrest
      · rcases ih hrest with ⟨h1, h2⟩ | ⟨x, y, h1, h2, h3, h4⟩
        · exact Or.inl ⟨by simp [alookup, hc, h1], by simp [alookup, hc, h2]⟩
        · refine Or.inr ⟨x, y, by simp [alookup, hc, h1], by simp [alookup, hc, h2], h3, fun x' hx' => ?_⟩
          simp only [replaceEntry, hc, if_false]
          exact .cons _ hs (h4 x' hx')

theorem find_shows {ro : Bool} (p : List Str) : ∀ {n : LNode} {r : RNode}, Shows ro n r →
    Shows ro (find p n).2 r ∧ match r.at p with
      | none => (find p n).1 = none
      | some r' => ∃ n', (find p n).1 = some n' ∧ Shows ro n' r' := by
  induction p with
  | nil => intro n r h; exact ⟨h, n, rfl, h⟩
  | cons c cs ih =>
    intro n r h
    cases r with
    | dir mode rs =>
      obtain ⟨h1, h2⟩ := shows_load h
      obtain ⟨es, h3, h4⟩ := h2 mode rs rfl
      simp only [find, h3, RNode.at]
      rcases forall_alookup h4 c with ⟨h5, h6⟩ | ⟨x, y, h5, h6, h7, h8⟩
      · rw [h5, h6]; exact ⟨.loaded mode h4, rfl⟩
      · rw [h5, h6]
        dsimp only [Option.bind_some]
        exact ⟨.loaded mode (h8 _ (ih h7).1), (ih h7).2⟩
    | file f =>
      have := shows_notDir h (by simp)
      simp only [find, RNode.at]
      exact ⟨(shows_load h).1, by trivial⟩
    | link t =>
      have := shows_notDir h (by simp)
      simp only [find, RNode.at]
      exact ⟨(shows_load h).1, by trivial⟩

theorem names_shows {ro : Bool} {es : List (Str × LNode)} {rs : List (Str × RNode)}
    (h : ShowsL ro es rs) : es.map Prod.fst = rs.map Prod.fst := by
  induction es generalizing rs with
  | nil => cases h; rfl
  | cons a es ih =>
    cases h with
    | cons nm h t => simp only [List.map_cons, ih t]

theorem list_shows {ro : Bool} (p : List Str) : ∀ {n : LNode} {r : RNode}, Shows ro n r →
    Shows ro (list p n).2 r ∧ (list p n).1 = match r.at p with
      | some (.dir _ rs) => some (rs.map Prod.fst)
      | _ => none := by
  induction p with
  | nil =>
    intro n r h
    refine ⟨(shows_load h).1, ?_⟩
    simp only [list, RNode.at]
    cases r with
    | dir mode rs =>
      obtain ⟨es, h3, h4⟩ := (shows_load h).2 mode rs rfl
      rw [h3]
      dsimp only
      rw [names_shows h4]
    | file f =>
      have := shows_notDir h (by simp)
      split
      · rename_i mode es e; exact absurd e (this mode es)
      · rfl
    | link t =>
      have := shows_notDir h (by simp)
      split
      · rename_i mode es e; exact absurd e (this mode es)
      · rfl
  | cons c cs ih =>
    intro n r h
    cases r with
    | dir mode rs =>
      obtain ⟨h1, h2⟩ := shows_load h
      obtain ⟨es, h3, h4⟩ := h2 mode rs rfl
      simp only [list, h3, RNode.at]
      rcases forall_alookup h4 c with ⟨h5, h6⟩ | ⟨x, y, h5, h6, h7, h8⟩
      · rw [h5, h6]; exact ⟨.loaded mode h4, rfl⟩
      · rw [h5, h6]
        dsimp only [Option.bind_some]
        exact ⟨.loaded mode (h8 _ (ih h7).1), (ih h7).2⟩
    | file f =>
      have := shows_notDir h (by simp)
      simp only [list, RNode.at]
      exact ⟨(shows_load h).1, by trivial⟩
    | link t =>
      have := shows_notDir h (by simp)
      simp only [list, RNode.at]
      exact ⟨(shows_load h).1, by trivial⟩

/-- C65: whatever was looked at before and in whatever order, every look at a mapped directory tree tells what the real tree has:
the same names, kinds, link targets, contents and modes (without write and execute permission for files mapped read-only). -/
theorem lazy_transparent {ro : Bool} (r : RNode) (ls : List Look) :
    (looks (mapNode ro r) ls).1 = ls.map (r.look ro) := by
  have key : ∀ (ls : List Look) (n : LNode), Shows ro n r → (looks n ls).1 = ls.map (r.look ro) := by
    intro ls
    induction ls with
    | nil => intro n _; rfl
    | cons l ls ih =>
      intro n h
      have hl : (look n l).1 = r.look ro l ∧ Shows ro (look n l).2 r := by
        cases l with
        | stat p =>
          obtain ⟨h1, h2⟩ := find_shows p h
          refine ⟨?_, h1⟩
          simp only [look, RNode.look]
          cases hr : r.at p with
          | none => rw [hr] at h2; dsimp only at h2; rw [h2]
          | some r' =>
            rw [hr] at h2
            obtain ⟨n', h3, h4⟩ := h2
            rw [h3]
            exact shows_seen h4
        | list p =>
          obtain ⟨h1, h2⟩ := list_shows p h
          refine ⟨?_, h1⟩
          simp only [look, RNode.look]
          rw [h2]
          cases hr : r.at p with
          | none => rfl
          | some r' => cases r' <;> rfl
      simp only [looks, List.map_cons]
      rw [hl.1, ih _ hl.2]
  exact key ls _ (.fresh r)

/-- An example: a directory with a file, a link, a subdirectory with a file and an empty directory. -/
def exTree : RNode := .dir 0o40755 [(['f'], .file exFile), (['l'], .link ['f']), (['d'], .dir 0o40700 [(['g'], .file exFile)]), (['e'], .dir 0o40755 [])]

example : (looks (mapNode true exTree) [.list [['d']], .stat [['d'], ['g']], .list [], .stat [['x']], .stat [['e']], .stat [['l']]]).1 =
    [.names [['g']], .file [1, 2] 0o100444, .names [['f'], ['l'], ['d'], ['e']], .nothing, .dir 0o40755, .link ['f']] := by decide +kernel

/-! ### `lazy_read=False` -/

/-- names of a real directory are unique -/
def RNode.Uniq (r : RNode) : Prop := ∀ p mode es, r.at p = some (.dir mode es) → (es.map Prod.fst).Nodup

theorem mem_eagerL {q : List Str} {x : RNode} {es : List (Str × RNode)} :
    (q, x) ∈ eagerL es ↔ ∃ nm n p, (nm, n) ∈ es ∧ q = nm :: p ∧ (p, x) ∈ eager n := by
  induction es with
  | nil => simp [eagerL]
  | cons e es ih =>
    obtain ⟨nm, n⟩ := e
    simp only [eagerL, List.mem_append, List.mem_map, ih]
    constructor
    · rintro (⟨⟨p, y⟩, hy, he⟩ | ⟨nm', n', p, h1, h2, h3⟩)
      · injection he with h1 h2
        dsimp only at h1 h2
        subst h2
        exact ⟨nm, n, p, by simp, h1.symm, hy⟩
      · exact ⟨nm', n', p, by simp [h1], h2, h3⟩
    · rintro ⟨nm', n', p, h1, h2, h3⟩
      rcases List.mem_cons.mp h1 with h | h
      · injection h with ha hb; subst ha; subst hb
        exact Or.inl ⟨(p, x), h3, by rw [h2]⟩
      · exact Or.inr ⟨nm', n', p, h, h2, h3⟩

theorem alookup_uniq {es : List (Str × RNode)} (h : (es.map Prod.fst).Nodup) {c : Str} {n : RNode} :
    alookup c es = some n ↔ (c, n) ∈ es := by
  induction es with
  | nil => simp [alookup]
  | cons e es ih =>
    obtain ⟨nm, y⟩ := e
    simp only [List.map_cons, List.nodup_cons] at h
    by_cases hc : nm = c
    · subst hc
      simp only [alookup, if_true, List.mem_cons, Prod.mk.injEq, true_and, Option.some.injEq]
      constructor
      · intro e; exact Or.inl e.symm
      · rintro (e | e)
        · exact e.symm
        · exact absurd (List.mem_map.mpr ⟨_, e, rfl⟩) h.1
    · have : (c, n) ≠ (nm, y) := fun e => hc (by injection e with e1 _; exact e1.symm)
      simp only [alookup, hc, if_false, List.mem_cons, this, false_or]
      exact ih h.2

/-- C65: `lazy_read=False` adds exactly the files and links of the real tree, each at its path. -/
theorem eager_leaves {x : RNode} (p : List Str) : ∀ {r : RNode}, r.Uniq →
    ((p, x) ∈ eager r ↔ r.at p = some x ∧ ∀ mode es, x ≠ .dir mode es) := by
  induction p with
  | nil =>
    intro r _
    cases r with
    | file f => simp only [eager, RNode.at, List.mem_singleton, Prod.mk.injEq, true_and, Option.some.injEq]; constructor
                · rintro rfl; exact ⟨rfl, by simp⟩
                · rintro ⟨h, _⟩; exact h.symm
    | link t => simp only [eager, RNode.at, List.mem_singleton, Prod.mk.injEq, true_and, Option.some.injEq]; constructor
                · rintro rfl; exact ⟨rfl, by simp⟩
                · rintro ⟨h, _⟩; exact h.symm
    | dir mode es =>
      simp only [eager, RNode.at, mem_eagerL]
      constructor
      · rintro ⟨_, _, _, _, h, _⟩; exact absurd h (by simp)
      · rintro ⟨h, h2⟩
        injection h with h
        exact absurd h.symm (h2 mode es)
  | cons c cs ih =>
    intro r hu
    cases r with
    | file f => simp [eager, RNode.at]
    | link t => simp [eager, RNode.at]
    | dir mode es =>
      have hn := hu [] mode es rfl
      simp only [eager, RNode.at, mem_eagerL]
      constructor
      · rintro ⟨nm, n, p, h1, h2, h3⟩
        injection h2 with h4 h5
        subst h4; subst h5
        have hl := (alookup_uniq hn).mpr h1
        rw [hl]
        refine (ih (r := n) ?_).mp h3
        intro q m' es' hq
        exact hu (c :: q) m' es' (by simp only [RNode.at, hl]; exact hq)
      · rintro ⟨h1, h2⟩
        cases hl : alookup c es with
        | none => rw [hl] at h1; simp at h1
        | some n =>
          rw [hl] at h1
          refine ⟨c, n, cs, (alookup_uniq hn).mp hl, rfl, (ih (r := n) ?_).mpr ⟨h1, h2⟩⟩
          intro q m' es' hq
          exact hu (c :: q) m' es' (by simp only [RNode.at, hl]; exact hq)

theorem RNode.at_append (p q : List Str) : ∀ r : RNode, r.at (p ++ q) = (r.at p).bind (RNode.at q) := by
  induction p with
  | nil => intro r; rfl
  | cons c cs ih =>
    intro r
    cases r with
    | file f => rfl
    | link t => rfl
    | dir mode es =>
      simp only [List.cons_append, RNode.at]
      cases alookup c es with
      | none => rfl
      | some n => exact ih n

/-- C65: what the eagerly made image of a directory has at a path: a file or link exactly where the real tree has it, and a
directory exactly at the real directories that have a file or link somewhere below, and at the root. -/
theorem eager_image {mode : Nat} {es : List (Str × RNode)} (hu : (RNode.dir mode es).Uniq) (p : List Str) :
    (∀ x, eagerAt (eager (.dir mode es)) p = .leaf x ↔ (RNode.dir mode es).at p = some x ∧ ∀ m' es', x ≠ .dir m' es') ∧
    (eagerAt (eager (.dir mode es)) p = .directory ↔ (∃ m' es', (RNode.dir mode es).at p = some (.dir m' es')) ∧
      (p = [] ∨ ∃ q x, (RNode.dir mode es).at (p ++ q) = some x ∧ ∀ m' es', x ≠ .dir m' es')) := by
  have hm := fun (q : List Str) (x : RNode) => eager_leaves (x := x) q hu
  have hr : (RNode.dir mode es).at [] = some (.dir mode es) := rfl
  generalize hgen : RNode.dir mode es = r at hm hr ⊢
  unfold eagerAt
  cases hf : (eager r).find? (fun x => decide (x.1 = p)) with
  | some y =>
    have hy := List.mem_of_find?_eq_some hf
    have hyp : y.1 = p := by simpa using List.find?_some hf
    obtain ⟨y1, y2⟩ := y
    dsimp only at hyp ⊢
    subst hyp
    obtain ⟨h1, h2⟩ := (hm _ _).mp hy
    refine ⟨fun x => ⟨fun e => ?_, fun ⟨e, _⟩ => ?_⟩, ⟨fun e => by simp at e, ?_⟩⟩
    · injection e with e; subst e; exact ⟨h1, h2⟩
    · rw [h1] at e; injection e with e; rw [e]
    · rintro ⟨⟨m', es', e⟩, _⟩
      rw [h1] at e; injection e with e; exact absurd e (h2 _ _)
  | none =>
    have hno : ∀ x, (p, x) ∉ eager r := by
      intro x hx
      have := List.find?_eq_none.mp hf (p, x) hx
      simp at this
    dsimp only
    refine ⟨fun x => ⟨fun e => ?_, fun e => absurd ((hm _ _).mpr e) (hno x)⟩, ⟨fun e => ?_, ?_⟩⟩
    · split at e <;> simp at e
    · split at e
      · rename_i h
        rcases h with h | h
        · subst h; exact ⟨⟨mode, es, hr.trans (congrArg some hgen.symm)⟩, Or.inl rfl⟩
        · obtain ⟨⟨y1, y2⟩, hy, hpre⟩ := List.any_eq_true.mp h
          have hpre := of_decide_eq_true hpre
          dsimp only at hpre
          obtain ⟨q, hq⟩ := hpre
          subst hq
          obtain ⟨h1, h2⟩ := (hm _ _).mp hy
          refine ⟨?_, Or.inr ⟨q, y2, h1, h2⟩⟩
          cases q with
          | nil => rw [List.append_nil] at hy; exact absurd hy (hno y2)
          | cons c cs =>
            rw [RNode.at_append] at h1
            cases hp : r.at p with
            | none => rw [hp] at h1; simp at h1
            | some n =>
              rw [hp] at h1
              cases n with
              | file f => simp [RNode.at] at h1
              | link t => simp [RNode.at] at h1
              | dir m' es' => exact ⟨m', es', rfl⟩
      · simp at e
    · rintro ⟨_, h⟩
      refine if_pos ?_
      rcases h with h | ⟨q, x, h1, h2⟩
      · exact Or.inl h
      · exact Or.inr (List.any_eq_true.mpr ⟨(p ++ q, x), (hm _ _).mpr ⟨h1, h2⟩, by simp⟩)

/-- The example's names are unique; its empty directory is lost when it is read eagerly, not when lazily. -/
theorem eager_empty_counterexample : eagerAt (eager exTree) [['e']] = .nothing ∧ eagerAt (eager exTree) [['d']] = .directory ∧
    (look (mapNode true exTree) (.stat [['e']])).1 = .dir 0o40755 := by
  refine ⟨rfl, rfl, rfl⟩

example : exTree.Uniq := by
  intro p mode es h
  rcases p with _ | ⟨c, p⟩
  · simp only [RNode.at, exTree, Option.some.injEq, RNode.dir.injEq] at h
    rw [← h.2]; decide
  · simp only [RNode.at, exTree, alookup] at h
    repeat' split at h
    all_goals (rcases p with _ | ⟨c', p⟩)
    all_goals simp [RNode.at, alookup] at h
    · obtain ⟨_, h⟩ := h; rw [← h]; decide
    · split at h
      · rcases p with _ | ⟨c2, p⟩ <;> simp [RNode.at] at h
      · simp at h
    · obtain ⟨_, h⟩ := h; rw [h]; decide

end Real
end Verif
