import Verif.Model.Node
import Verif.Props.Children

/-!
C34: node::clone().
-/

namespace Csspp.Spec
open Csspp.Node

/-- The content of a tree of nodes, without addresses: the data of the node (except the lowercase
string), the children, the variables. -/
inductive Tree where
  | node (data : Node) (children : List Tree) (vars : List (Str × Tree))

/-- `f` on every element, if it is defined on all of them. -/
def allSome {α β : Type} (f : α → Option β) : List α → Option (List β)
  | [] => some []
  | a :: as =>
    match f a, allSome f as with
    | some b, some bs => some (b :: bs)
    | _, _ => none

/-- The tree found at an address, when it is at most `k` levels deep. -/
def view : Nat → Heap → Ref → Option Tree
  | 0, _, _ => none
  | k + 1, h, r =>
    match h[r]? with
    | none => none
    | some n =>
      match allSome (view k h) n.children, allSome (view k h) (n.vars.map (·.2)) with
      | some cs, some vs =>
        some (.node { n with
          lower := []
          children := []
          vars := [] } cs ((n.vars.map (·.1)).zip vs))
      | _, _ => none

/-- The addresses one can reach from a node by children and variables. -/
inductive Reach (h : Heap) : Ref → Ref → Prop where
  | here (r : Ref) : Reach h r r
  | child {r c x : Ref} {n : Node} : h[r]? = some n → c ∈ n.children → Reach h c x → Reach h r x
  | var {r c x : Ref} {n : Node} {name : Str} :
      h[r]? = some n → (name, c) ∈ n.vars → Reach h c x → Reach h r x

end Csspp.Spec

namespace Csspp.Node
open Csspp.Spec

/-- `h'` has all the nodes of `h` unchanged. -/
def Ext (h h' : Heap) : Prop := ∀ (i : Nat) (n : Node), h[i]? = some n → h'[i]? = some n

/-- The nodes at or above `b` have no lowercase string and only point to such nodes. -/
def Closed (b : Nat) (h : Heap) : Prop :=
  ∀ (x : Nat) (n : Node), b ≤ x → h[x]? = some n → n.lower = [] ∧
    (∀ c : Nat, c ∈ n.children → b ≤ c ∧ c < h.length) ∧
    (∀ c : Nat, c ∈ n.vars.map (·.2) → b ≤ c ∧ c < h.length)

theorem Ext.refl (h : Heap) : Ext h h := fun _ _ e => e
theorem Ext.trans {a b c : Heap} (h1 : Ext a b) (h2 : Ext b c) : Ext a c := fun i n e => h2 i n (h1 i n e)
theorem Ext.length {a b : Heap} (h : Ext a b) : a.length ≤ b.length := by
  by_cases hl : a.length = 0
  · omega
  · have e : a[a.length - 1]? = some a[a.length - 1] := List.getElem?_eq_getElem (by omega)
    have := (List.getElem?_eq_some_iff.mp (h _ _ e)).1
    omega

theorem Closed.trans {b : Nat} {h h' : Heap} (c1 : Closed b h) (hb : b ≤ h.length) (e : Ext h h')
    (c2 : Closed h.length h') : Closed b h' := by
  intro x n hx hn
  by_cases hlt : x < h.length
  · have e1 : h[x]? = some h[x] := List.getElem?_eq_getElem hlt
    have e2 := e _ _ e1
    rw [hn] at e2
    cases e2
    obtain ⟨a1, a2, a3⟩ := c1 x _ hx e1
    have := e.length
    exact ⟨a1, fun c hc => ⟨(a2 c hc).1, by have := (a2 c hc).2; omega⟩,
      fun c hc => ⟨(a3 c hc).1, by have := (a3 c hc).2; omega⟩⟩
  · obtain ⟨a1, a2, a3⟩ := c2 x n (by omega) hn
    exact ⟨a1, fun c hc => ⟨by have := (a2 c hc).1; omega, (a2 c hc).2⟩,
      fun c hc => ⟨by have := (a3 c hc).1; omega, (a3 c hc).2⟩⟩

theorem allSome_mono {α β : Type} {f g : α → Option β} {l : List α} {t : List β}
    (h : ∀ a ∈ l, ∀ b, f a = some b → g a = some b) (e : allSome f l = some t) : allSome g l = some t := by
  induction l generalizing t with
  | nil => exact e
  | cons a as ih =>
    rw [allSome] at e ⊢
    cases hf : f a with
    | none => rw [hf] at e; cases e
    | some b =>
      cases hs : allSome f as with
      | none => rw [hf, hs] at e; cases e
      | some bs =>
        rw [hf, hs] at e
        rw [h a (by simp) b hf, ih (fun a ha b => h a (by simp [ha]) b) hs]
        exact e

theorem allSome_length {α β : Type} {f : α → Option β} {l : List α} {t : List β}
    (e : allSome f l = some t) : t.length = l.length := by
  induction l generalizing t with
  | nil => cases e; rfl
  | cons a as ih =>
    rw [allSome] at e
    cases hf : f a with
    | none => rw [hf] at e; cases e
    | some b =>
      cases hs : allSome f as with
      | none => rw [hf, hs] at e; cases e
      | some bs => rw [hf, hs] at e; cases e; simp [ih hs]

/-- A tree stays what it is when the nodes found in the heap stay what they are. -/
theorem view_ext {k : Nat} {h h' : Heap} (e : Ext h h') {r : Ref} {t : Tree}
    (hv : view k h r = some t) : view k h' r = some t := by
  induction k generalizing r t with
  | zero => cases hv
  | succ k ih =>
    rw [view] at hv ⊢
    cases hn : h[r]? with
    | none => rw [hn] at hv; cases hv
    | some n =>
      rw [hn] at hv
      rw [e r n hn]
      dsimp only at hv ⊢
      cases hc : allSome (view k h) n.children with
      | none => rw [hc] at hv; cases hv
      | some cs =>
        cases hw : allSome (view k h) (n.vars.map (·.2)) with
        | none => rw [hc, hw] at hv; cases hv
        | some vs =>
          rw [hc, hw] at hv
          rw [allSome_mono (fun a _ b => ih) hc, allSome_mono (fun a _ b => ih) hw]
          exact hv

/-- What is seen from the nodes above `b` only depends on them. -/
theorem view_closed {k b : Nat} {h h' : Heap} (c : Closed b h)
    (e : ∀ (i : Nat) (n : Node), b ≤ i → h[i]? = some n → h'[i]? = some n) {r : Ref} (hr : b ≤ r) {t : Tree}
    (hv : view k h r = some t) : view k h' r = some t := by
  induction k generalizing r t with
  | zero => cases hv
  | succ k ih =>
    rw [view] at hv ⊢
    cases hn : h[r]? with
    | none => rw [hn] at hv; cases hv
    | some n =>
      obtain ⟨_, c1, c2⟩ := c r n hr hn
      rw [hn] at hv
      rw [e r n hr hn]
      dsimp only at hv ⊢
      cases hc : allSome (view k h) n.children with
      | none => rw [hc] at hv; cases hv
      | some cs =>
        cases hw : allSome (view k h) (n.vars.map (·.2)) with
        | none => rw [hc, hw] at hv; cases hv
        | some vs =>
          rw [hc, hw] at hv
          rw [allSome_mono (fun a ha b => ih (c1 a ha).1) hc,
            allSome_mono (fun a ha b => ih (c2 a ha).1) hw]
          exact hv

/-- What clone() does to one node. -/
def CloneOk (k : Nat) (h : Heap) (r : Ref) (t : Tree) : Prop :=
  ∃ h', clone k h r = some (h.length, h') ∧ Ext h h' ∧ h.length < h'.length ∧
    Closed h.length h' ∧ view k h' h.length = some t

theorem mapHeap_spec {k : Nat} (ih : ∀ h r t, view k h r = some t → CloneOk k h r t)
    (rs : List Ref) : ∀ (h : Heap) (ts : List Tree), allSome (view k h) rs = some ts →
    ∃ rs' h', mapHeap (clone k) h rs = some (rs', h') ∧ Ext h h' ∧
      Closed h.length h' ∧ (∀ c : Nat, c ∈ rs' → h.length ≤ c ∧ c < h'.length) ∧
      allSome (view k h') rs' = some ts := by
  induction rs with
  | nil =>
    intro h ts e
    refine ⟨[], h, rfl, Ext.refl h, ?_, by simp, e⟩
    intro x n hx hn
    have := (List.getElem?_eq_some_iff.mp hn).1
    omega
  | cons r rs ihr =>
    intro h ts e
    rw [allSome] at e
    cases hf : view k h r with
    | none => rw [hf] at e; cases e
    | some b =>
      cases hs : allSome (view k h) rs with
      | none => rw [hf, hs] at e; cases e
      | some bs =>
        rw [hf, hs] at e
        cases e
        obtain ⟨h1, k1, k2, k3, k4, k5⟩ := ih h r b hf
        obtain ⟨rs', h2, l1, l2, l3, l4, l5⟩ :=
          ihr h1 bs (allSome_mono (fun a _ b => view_ext k2) hs)
        have := l2.length
        refine ⟨h.length :: rs', h2, ?_, k2.trans l2, k4.trans k2.length l2 l3, ?_, ?_⟩
        · rw [mapHeap, k1]; dsimp only; rw [l1]
        · intro c hc
          rcases List.mem_cons.1 hc with rfl | hc
          · exact ⟨Nat.le_refl _, by omega⟩
          · have := l4 c hc
            omega
        · rw [allSome, view_ext l2 k5, l5]

theorem zip_fst {α β : Type} (a : List α) (b : List β) (h : b.length = a.length) :
    (a.zip b).map (·.1) = a := by
  induction a generalizing b with
  | nil => rfl
  | cons x t ih =>
    cases b with
    | nil => cases h
    | cons y u => simp [ih u (by simpa using h)]

theorem zip_snd {α β : Type} (a : List α) (b : List β) (h : b.length = a.length) :
    (a.zip b).map (·.2) = b := by
  induction a generalizing b with
  | nil => cases b with | nil => rfl | cons => cases h
  | cons x t ih =>
    cases b with
    | nil => cases h
    | cons y u => simp [ih u (by simpa using h)]

theorem clone_spec (k : Nat) : ∀ h r t, view k h r = some t → CloneOk k h r t := by
  induction k with
  | zero => intro h r t e; cases e
  | succ k ih =>
    intro h r t hv
    rw [view] at hv
    cases hn : h[r]? with
    | none => rw [hn] at hv; cases hv
    | some n =>
      rw [hn] at hv
      dsimp only at hv
      cases hc : allSome (view k h) n.children with
      | none => rw [hc] at hv; cases hv
      | some cs =>
        cases hw : allSome (view k h) (n.vars.map (·.2)) with
        | none => rw [hc, hw] at hv; cases hv
        | some vs =>
          rw [hc, hw] at hv
          dsimp only at hv
          cases hv
          let nn : Node := { ty := n.ty, pos := n.pos, bool := n.bool, int := n.int, dec := n.dec,
                             str := n.str, flags := n.flags }
          have e0 : Ext h (h ++ [nn]) := by
            intro i m hm
            rw [List.getElem?_append_left (List.getElem?_eq_some_iff.mp hm).1, hm]
          obtain ⟨cs', h1, a1, a2, a3, a4, a5⟩ :=
            mapHeap_spec ih n.children (h ++ [nn]) cs (allSome_mono (fun a _ b => view_ext e0) hc)
          obtain ⟨vs', h2, b1, b2, b3, b4, b5⟩ :=
            mapHeap_spec ih (n.vars.map (·.2)) h1 vs
              (allSome_mono (fun a _ b => view_ext (e0.trans a2)) hw)
          have hlen : (h ++ [nn]).length = h.length + 1 := by simp
          have g1 := a2.length
          have g2 := b2.length
          rw [hlen] at g1 a3 a4
          have c2 : Closed (h.length + 1) h2 := a3.trans g1 b2 b3
          have hnew : h2[h.length]? = some nn := b2 _ _ (a2 _ _ (by simp))
          let upd : Node → Node := fun m =>
            { m with children := cs', vars := (n.vars.map (·.1)).zip vs' }
          have hvl : vs'.length = (n.vars.map (·.1)).length := by
            have q1 := allSome_length b5
            have q2 := allSome_length hw
            simp at q2 ⊢
            omega
          have hup : (h2.modify h.length upd)[h.length]? = some (upd nn) := by
            rw [List.getElem?_modify_eq, hnew]; rfl
          have hother : ∀ (i : Nat) (m : Node), i ≠ h.length → h2[i]? = some m →
              (h2.modify h.length upd)[i]? = some m := by
            intro i m hi hm
            rw [modify_other _ (Ne.symm hi), hm]
          have hcl : Closed h.length (h2.modify h.length upd) := by
            intro x m hx hm
            rw [List.length_modify]
            by_cases hxe : x = h.length
            · subst hxe
              rw [hup] at hm
              cases hm
              refine ⟨rfl, fun c hc => ?_, fun c hc => ?_⟩
              · have := a4 c hc
                omega
              · dsimp only [upd] at hc
                rw [zip_snd _ _ hvl] at hc
                have := b4 c hc
                omega
            · rw [modify_other _ (Ne.symm hxe)] at hm
              obtain ⟨q1, q2, q3⟩ := c2 x m (by omega) hm
              exact ⟨q1, fun c hc => ⟨by have := (q2 c hc).1; omega, (q2 c hc).2⟩,
                fun c hc => ⟨by have := (q3 c hc).1; omega, (q3 c hc).2⟩⟩
          have hview : ∀ (c : Nat) (t : Tree), h.length + 1 ≤ c → view k h2 c = some t →
              view k (h2.modify h.length upd) c = some t := fun c t hc =>
            view_closed c2 (fun i m hi => hother i m (by omega)) hc
          refine ⟨h2.modify h.length upd, ?_, ?_, by rw [List.length_modify]; omega, hcl, ?_⟩
          · rw [clone, hn]
            dsimp only
            rw [a1]
            dsimp only
            rw [b1]
          · intro i m hm
            have := (List.getElem?_eq_some_iff.mp hm).1
            exact hother i m (by omega) (b2 _ _ (a2 _ _ (e0 _ _ hm)))
          · rw [view, hup]
            dsimp only
            dsimp only [upd]
            rw [zip_snd _ _ hvl, zip_fst _ _ hvl,
              allSome_mono (fun a ha b => hview a b (by have := a4 a ha; omega))
                (allSome_mono (fun a _ b => view_ext b2) a5),
              allSome_mono (fun a ha b => hview a b (by have := b4 a ha; omega)) b5]

theorem reach_closed {b : Nat} {h : Heap} (c : Closed b h) {r x : Ref} (hx : Reach h r x) :
    b ≤ r → b ≤ x := by
  induction hx with
  | here => exact id
  | child hn hc _ ih => intro hr; exact ih ((c _ _ hr hn).2.1 _ hc).1
  | var hn hc _ ih => intro hr; exact ih ((c _ _ hr hn).2.2 _ (List.mem_map_of_mem (f := (·.2)) hc)).1

/-- C34: clone() of a tree of any (finite) depth returns a new node with the same content, all of it
new nodes; the existing nodes are not touched. The lowercase strings are all empty in the clone. -/
theorem C34_clone (k : Nat) (h : Heap) (r : Ref) (t : Tree) (hv : view k h r = some t) :
    ∃ r' h', clone k h r = some (r', h') ∧ view k h' r' = some t ∧
      (∀ x : Nat, x < h.length → h'[x]? = h[x]?) ∧
      (∀ x : Nat, Reach h' r' x → h.length ≤ x) ∧
      (∀ x n, Reach h' r' x → h'[x]? = some n → n.lower = []) := by
  obtain ⟨h', a1, a2, a3, a4, a5⟩ := clone_spec k h r t hv
  refine ⟨_, h', a1, a5, ?_, ?_, ?_⟩
  · intro x hx
    have e : h[x]? = some h[x] := List.getElem?_eq_getElem hx
    rw [e]
    exact a2 _ _ e
  · intro x hx
    exact reach_closed a4 hx (Nat.le_refl _)
  · intro x n hx hn
    exact (a4 x n (reach_closed a4 hx (Nat.le_refl _)) hn).1

/-- C34 (independence): after clone(), whatever is written in nodes that existed before does not
change what is seen from the clone, and whatever is written in the nodes of the clone does not
change what is seen from the nodes that existed before. -/
theorem C34_independent (k : Nat) (h : Heap) (r : Ref) (t : Tree) (hv : view k h r = some t)
    (r' : Ref) (h' : Heap) (hc : clone k h r = some (r', h')) (h'' : Heap) :
    ((∀ x : Nat, h.length ≤ x → h''[x]? = h'[x]?) → view k h'' r' = some t) ∧
    ((∀ x : Nat, ¬ Reach h' r' x → h''[x]? = h'[x]?) →
      ∀ m y u, view m h y = some u → view m h'' y = some u) := by
  obtain ⟨h1, a1, a2, a3, a4, a5⟩ := clone_spec k h r t hv
  rw [hc] at a1
  cases a1
  refine ⟨fun hw => ?_, fun hw m y u hu => ?_⟩
  · exact view_closed a4 (fun i n hi hn => by rw [hw i hi, hn]) (Nat.le_refl _) a5
  · refine view_ext ?_ hu
    intro i n hn
    have hi := (List.getElem?_eq_some_iff.mp hn).1
    rw [hw i (fun hx => by have := reach_closed a4 hx (Nat.le_refl _); omega)]
    exact a2 i n hn

/-! ### concrete cases -/

/-- A heap with an identifier used twice by a list and once as a variable. -/
def sampleHeap : Heap :=
  [ { ty := .IDENTIFIER, pos := ⟨1, 1, 1⟩, str := [97], lower := [97], flags := [[120]] },
    { ty := .LIST, pos := ⟨2, 1, 2⟩, children := [0, 0], vars := [([118], 0)] } ]

example : ∃ t, view 2 sampleHeap 1 = some t := ⟨_, rfl⟩

example : (clone 2 sampleHeap 1).map (fun x => (x.1, x.2.map (fun n => (n.children, n.lower)))) =
    some (2, [([], [97]), ([0, 0], []), ([3, 4], []), ([], []), ([], []), ([], [])]) := by
  decide

/-- The lowercase string is not copied. -/
theorem C34_refuted_lowercase :
    (clone 1 sampleHeap 0).map (fun x => x.2[x.1]?.map (fun n => (n.str, n.lower))) =
      some (some ([97], [])) ∧
    sampleHeap[0]?.map (fun n => (n.str, n.lower)) = some ([97], [97]) := by
  decide

end Csspp.Node
