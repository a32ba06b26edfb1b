import Verif.Spec.MapHost

/-! Operations on maps that return have called nothing that raised. -/

namespace Expression.MapHost

open Expression Spec MapTree Tree

variable {σ K V R α β : Type} {I : σ → Prop}

namespace RK

theorem pure (a : α) : ReturnsKeep I (Pure.pure a) := by
  intro w b w' h e; cases e; exact h

theorem raise (e : PyErr) : ReturnsKeep (α := α) I (Py.raise e) := by
  intro w b w' h e; cases e

theorem ofExcept (a : Except PyErr α) : ReturnsKeep I (Py.ofExcept a) := by
  cases a with
  | error e => exact raise e
  | ok a => exact pure a

theorem bind {p : Py σ α} {f : α → Py σ β} (h : ReturnsKeep I p) (hf : ∀ a, ReturnsKeep I (f a)) :
    ReturnsKeep I (p >>= f) := by
  intro w b w' hw e
  rw [Py.exec_bind] at e
  rcases hp : p.exec w with ⟨_ | a, w1⟩
  · rw [hp] at e; cases e
  · rw [hp] at e; exact hf a w1 b w' (h w a w1 hw hp) e

theorem ite {c : Bool} {p q : Py σ α} (hp : ReturnsKeep I p) (hq : ReturnsKeep I q) :
    ReturnsKeep I (if c = true then p else q) := by
  cases c with
  | true => exact hp
  | false => exact hq

theorem opt {o : Option α} {f : α → Py σ β} {q : Py σ β} (hf : ∀ a, ReturnsKeep I (f a)) (hq : ReturnsKeep I q) :
    ReturnsKeep I (match o with | some a => f a | none => q) := by
  cases o with
  | some a => exact hf a
  | none => exact hq

end RK

variable {H : Host σ K} (hc : ∀ (α : Type) (p : Py σ α), ReturnsKeep I p → ReturnsKeep I (H.call p))
include hc

theorem splice_rk (t : Tree K V) : ReturnsKeep I (spliceOutSuccessor H t) := by
  induction t with
  | nothing => exact RK.raise _
  | leaf => exact RK.pure _
  | node k v l r h ihl _ => exact RK.ite (RK.pure _) (RK.bind (hc _ _ ihl) fun _ => RK.pure _)

theorem iter_rk {f : K → V → Py σ Unit} (hf : ∀ k v, ReturnsKeep I (f k v)) (t : Tree K V) : ReturnsKeep I (iter H f t) := by
  induction t with
  | nothing => exact RK.pure _
  | leaf => exact hf _ _
  | node k v l r h ihl ihr => exact RK.bind (hc _ _ ihl) fun _ => RK.bind (hf _ _) fun _ => hc _ _ ihr

theorem tryPick_rk {f : K → V → Py σ (Option R)} (hf : ∀ k v, ReturnsKeep I (f k v)) (t : Tree K V) :
    ReturnsKeep I (tryPick H f t) := by
  induction t with
  | nothing => exact RK.pure _
  | leaf => exact hf _ _
  | node k v l r h ihl ihr =>
    exact RK.bind (hc _ _ ihl) fun _ => RK.ite (RK.pure _) (RK.bind (hf _ _) fun _ => RK.ite (RK.pure _) (hc _ _ ihr))

theorem exists_rk {f : K → V → Py σ Bool} (hf : ∀ k v, ReturnsKeep I (f k v)) (t : Tree K V) :
    ReturnsKeep I (MapHost.exists H f t) := by
  induction t with
  | nothing => exact RK.pure _
  | leaf => exact hf _ _
  | node k v l r h ihl ihr =>
    exact RK.bind (hc _ _ ihl) fun _ => RK.ite (RK.pure _) (RK.bind (hf _ _) fun _ => RK.ite (RK.pure _) (hc _ _ ihr))

theorem forall_rk {f : K → V → Py σ Bool} (hf : ∀ k v, ReturnsKeep I (f k v)) (t : Tree K V) :
    ReturnsKeep I (MapHost.forall H f t) := by
  induction t with
  | nothing => exact RK.pure _
  | leaf => exact hf _ _
  | node k v l r h ihl ihr =>
    exact RK.bind (hc _ _ ihl) fun _ => RK.ite (RK.bind (hf _ _) fun _ => RK.ite (hc _ _ ihr) (RK.pure _)) (RK.pure _)

theorem map_rk {f : K → V → Py σ R} (hf : ∀ k v, ReturnsKeep I (f k v)) (t : Tree K V) : ReturnsKeep I (map H f t) := by
  induction t with
  | nothing => exact RK.pure _
  | leaf => exact RK.bind (hf _ _) fun _ => RK.pure _
  | node k v l r h ihl ihr =>
    exact RK.bind (hc _ _ ihl) fun _ => RK.bind (hf _ _) fun _ => RK.bind (hc _ _ ihr) fun _ => RK.pure _

theorem fold_rk {f : R → K × V → Py σ R} (hf : ∀ x kv, ReturnsKeep I (f x kv)) (t : Tree K V) :
    ∀ x, ReturnsKeep I (fold H f x t) := by
  induction t with
  | nothing => intro x; exact RK.pure _
  | leaf => intro x; exact hf _ _
  | node k v l r h ihl ihr =>
    intro x
    exact RK.bind (hc _ _ (ihl _)) fun _ => RK.bind (hf _ _) fun _ => hc _ _ (ihr _)

theorem foldBack_rk {f : K × V → R → Py σ R} (hf : ∀ kv x, ReturnsKeep I (f kv x)) (t : Tree K V) :
    ∀ x, ReturnsKeep I (foldBack H f t x) := by
  induction t with
  | nothing => intro x; exact RK.pure _
  | leaf => intro x; exact hf _ _
  | node k v l r h ihl ihr =>
    intro x
    exact RK.bind (hc _ _ (ihr _)) fun _ => RK.bind (hf _ _) fun _ => hc _ _ (ihl _)

variable (hlt : ∀ a b, ReturnsKeep I (H.lt a b)) (heq : ∀ a b, ReturnsKeep I (H.eq a b))
include hlt heq

theorem add_rk (k : K) (v : V) (t : Tree K V) : ReturnsKeep I (add H k v t) := by
  induction t with
  | nothing => exact RK.pure _
  | leaf => exact RK.bind (hlt _ _) fun _ => RK.ite (RK.pure _) (RK.bind (heq _ _) fun _ => RK.ite (RK.pure _) (RK.pure _))
  | node key v l r h ihl ihr =>
    exact RK.bind (hlt _ _) fun _ => RK.ite (RK.bind (hc _ _ ihl) fun _ => RK.ofExcept _)
      (RK.bind (heq _ _) fun _ => RK.ite (RK.pure _) (RK.bind (hc _ _ ihr) fun _ => RK.ofExcept _))

theorem tryFind_rk (k : K) (t : Tree K V) : ReturnsKeep I (tryFind H k t) := by
  induction t with
  | nothing => exact RK.pure _
  | leaf => exact RK.bind (heq _ _) fun _ => RK.ite (RK.pure _) (RK.pure _)
  | node key v l r h ihl ihr =>
    exact RK.bind (heq _ _) fun _ => RK.ite (RK.pure _) (RK.bind (hlt _ _) fun _ => RK.ite (hc _ _ ihl) (hc _ _ ihr))

theorem find_rk (k : K) (t : Tree K V) : ReturnsKeep I (find H k t) :=
  RK.bind (hc _ _ (tryFind_rk hc hlt heq k t)) fun _ => RK.opt (fun _ => RK.pure _) (RK.raise _)

theorem mem_rk (k : K) (t : Tree K V) : ReturnsKeep I (mem H k t) := by
  induction t with
  | nothing => exact RK.pure _
  | leaf => exact heq _ _
  | node key v l r h ihl ihr =>
    exact RK.bind (hlt _ _) fun _ => RK.ite (hc _ _ ihl) (RK.bind (heq _ _) fun _ => RK.ite (RK.pure _) (hc _ _ ihr))

theorem remove_rk (k : K) (t : Tree K V) : ReturnsKeep I (remove H k t) := by
  induction t with
  | nothing => exact RK.pure _
  | leaf => exact RK.bind (heq _ _) fun _ => RK.ite (RK.pure _) (RK.pure _)
  | node key v l r h ihl ihr =>
    exact RK.bind (hlt _ _) fun _ => RK.ite (RK.bind (hc _ _ ihl) fun _ => RK.ofExcept _)
      (RK.bind (heq _ _) fun _ => RK.ite
        (RK.ite (RK.pure _) (RK.ite (RK.pure _) (RK.bind (hc _ _ (splice_rk hc r)) fun _ => RK.pure _)))
        (RK.bind (hc _ _ ihr) fun _ => RK.ofExcept _))

theorem change_rk (k : K) {u : Option V → Py σ (Option V)} (hu : ∀ o, ReturnsKeep I (u o)) (t : Tree K V) :
    ReturnsKeep I (change H k u t) := by
  induction t with
  | nothing => exact RK.bind (hu _) fun _ => RK.opt (fun _ => RK.pure _) (RK.raise _)
  | leaf =>
    exact RK.bind (hlt _ _) fun _ => RK.ite (RK.bind (hu _) fun _ => RK.opt (fun _ => RK.pure _) (RK.pure _))
      (RK.bind (heq _ _) fun _ => RK.ite (RK.bind (hu _) fun _ => RK.opt (fun _ => RK.pure _) (RK.pure _))
        (RK.bind (hu _) fun _ => RK.opt (fun _ => RK.pure _) (RK.pure _)))
  | node key v l r h ihl ihr =>
    exact RK.bind (hlt _ _) fun _ => RK.ite (RK.bind (hc _ _ ihl) fun _ => RK.ofExcept _)
      (RK.bind (heq _ _) fun _ => RK.ite
        (RK.bind (hu _) fun _ => RK.opt (fun _ => RK.pure _)
          (RK.ite (RK.pure _) (RK.ite (RK.pure _) (RK.bind (hc _ _ (splice_rk hc r)) fun _ => RK.pure _))))
        (RK.bind (hc _ _ ihr) fun _ => RK.ofExcept _))

theorem filterAux_rk {p : K → V → Py σ Bool} (hp : ∀ k v, ReturnsKeep I (p k v)) (t : Tree K V) :
    ∀ acc, ReturnsKeep I (filterAux H p t acc) := by
  have h1 : ∀ k v (acc : Tree K V), ReturnsKeep I (filter1 H p k v acc) := fun k v acc =>
    RK.bind (hp _ _) fun _ => RK.ite (hc _ _ (add_rk hc hlt heq _ _ _)) (RK.pure _)
  induction t with
  | nothing => intro; exact RK.pure _
  | leaf => intro; exact hc _ _ (h1 _ _ _)
  | node key v l r h ihl ihr =>
    intro
    exact RK.bind (hc _ _ (ihl _)) fun _ => RK.bind (hc _ _ (h1 _ _ _)) fun _ => hc _ _ (ihr _)

theorem partitionAux_rk {p : K → V → Py σ Bool} (hp : ∀ k v, ReturnsKeep I (p k v)) (t : Tree K V) :
    ∀ acc, ReturnsKeep I (partitionAux H p t acc) := by
  have h1 : ∀ k v (acc : Tree K V × Tree K V), ReturnsKeep I (partition1 H p k v acc) := fun k v acc =>
    RK.bind (hp _ _) fun _ => RK.ite (RK.bind (hc _ _ (add_rk hc hlt heq _ _ _)) fun _ => RK.pure _)
      (RK.bind (hc _ _ (add_rk hc hlt heq _ _ _)) fun _ => RK.pure _)
  induction t with
  | nothing => intro; exact RK.pure _
  | leaf => intro; exact hc _ _ (h1 _ _ _)
  | node key v l r h ihl ihr =>
    intro
    exact RK.bind (hc _ _ (ihr _)) fun _ => RK.bind (hc _ _ (h1 _ _ _)) fun _ => hc _ _ (ihl _)

theorem ofListFrom_rk (xs : List (K × V)) : ∀ acc : Tree K V,
    ReturnsKeep I (xs.foldlM (fun acc kv => H.call (H.call (add H kv.1 kv.2 acc))) acc) := by
  induction xs with
  | nil => intro; exact RK.pure _
  | cons x xs ih =>
    intro acc
    rw [List.foldlM_cons]
    exact RK.bind (hc _ _ (hc _ _ (add_rk hc hlt heq _ _ _))) fun _ => ih _

theorem mkFromIterator_rk (xs : List (K × V)) : ∀ acc : Tree K V, ReturnsKeep I (mkFromIterator H acc xs) := by
  induction xs with
  | nil => intro; exact RK.pure _
  | cons x xs ih => intro acc; exact RK.bind (hc _ _ (add_rk hc hlt heq _ _ _)) fun _ => hc _ _ (ih _)

end Expression.MapHost
