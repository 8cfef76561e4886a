import Verif.Lemmas.SchemaXmlSafe
import Verif.Lemmas.SchemaLayout
import Verif.Lemmas.Las2txt
import Mathlib.Data.List.TakeWhile
/-
The tree of a schema and what is read back from it.
-/
namespace LibLAS.Xml
open LibLAS.Spec PTree

/-- The children of the tree of a dimension. -/
def dimKids (n : Note) (d : Dim) : List (List Byte × PTree) :=
  [(lit "name", .node (lit d.name) []), (lit "description", .node n.description []), (lit "position", .node (num d.position) []),
   (lit "active", .node (flag d.active) []), (lit "size", .node (num d.bitSize) []), (lit "integer", .node (flag n.integer) []),
   (lit "signed", .node (flag n.signed) []), (lit "required", .node (flag d.required) []),
   (lit "byteoffset", .node (num d.byteOffset) []), (lit "bitoffset", .node (num d.bitOffset) []),
   (lit "bytesize", .node (num d.byteSize) [])] ++
  match n.range with
  | none => []
  | some (lo, hi) => [(lit "minimum", .node lo []), (lit "maximum", .node hi [])]

/-- A literal key is new among literal keys. -/
local macro "newKey" : tactic =>
  `(tactic| (simp only [List.map_append, List.map_cons, List.map_nil, List.nil_append, List.cons_append]; decide +kernel))

theorem changeKid_hit (k : List Byte) (f : PTree → PTree) (t : PTree) (r : List (List Byte × PTree)) :
    changeKid k f ((k, t) :: r) = (k, f t) :: r := by
  rw [changeKid, if_pos rfl]

theorem changeKid_new (k : List Byte) (f : PTree → PTree) (ks : List (List Byte × PTree)) (h : k ∉ ks.map Prod.fst) :
    changeKid k f ks = ks ++ [(k, f PTree.empty)] := by
  induction ks with
  | nil => rfl
  | cons p ks ih =>
    obtain ⟨k', t⟩ := p
    rw [List.map_cons, List.mem_cons, not_or] at h
    rw [changeKid, if_neg (fun e => h.1 e.symm), ih h.2]
    rfl

theorem put_new (d : List Byte) (ks : List (List Byte × PTree)) (k v : List Byte) (h : k ∉ ks.map Prod.fst) :
    (PTree.node d ks).put [k] v = .node d (ks ++ [(k, .node v [])]) := by
  show PTree.node d (changeKid k (fun c => PTree.node v c.kids) ks) = _
  rw [changeKid_new _ _ _ h]
  rfl

set_option maxRecDepth 4000 in
theorem dimTree_eq (n : Note) (d : Dim) : dimTree n d = .node [] (dimKids n d) := by
  unfold dimTree PTree.empty dimKids
  dsimp only
  have h : ∀ (t : PTree) (ks : List (List Byte × PTree)) (k v : List Byte), t = .node [] ks → k ∉ ks.map Prod.fst →
      t.put [k] v = .node [] (ks ++ [(k, .node v [])]) := by
    rintro _ ks k v rfl hk
    exact put_new _ _ _ _ hk
  rw [h _ [] (lit "name") _ rfl (by decide), h _ _ (lit "description") _ rfl (by newKey),
    h _ _ (lit "position") _ rfl (by newKey), h _ _ (lit "active") _ rfl (by newKey),
    h _ _ (lit "size") _ rfl (by newKey), h _ _ (lit "integer") _ rfl (by newKey),
    h _ _ (lit "signed") _ rfl (by newKey), h _ _ (lit "required") _ rfl (by newKey),
    h _ _ (lit "byteoffset") _ rfl (by newKey), h _ _ (lit "bitoffset") _ rfl (by newKey),
    h _ _ (lit "bytesize") _ rfl (by newKey)]
  unfold putRange
  cases n.range with
  | none => rfl
  | some r =>
    obtain ⟨lo, hi⟩ := r
    dsimp only
    rw [h _ _ (lit "minimum") _ rfl (by newKey), h _ _ (lit "maximum") _ rfl (by newKey)]
    rfl

/-- The three texts after the dimensions. -/
def tailKids (version : List Byte) (f : PointFormat) : List (List Byte × PTree) :=
  [(lit "version", .node version []), (lit "liblas", .node (lit "1.8.2") []), (lit "formatid", .node (num f.code.toNat) [])]

/-- The node of the dimensions, when there are any. -/
def dimsKids (notes : Notes) (ds : List Dim) : List (List Byte × PTree) :=
  if ds = [] then [] else [(lit "dimensions", .node [] (ds.map fun d => (lit "dimension", .node [] (dimKids (notes d.name) d))))]

theorem fold_dims (notes : Notes) (ds : List Dim) (ks : List (List Byte × PTree)) :
    ds.foldl (fun (t : PTree) d => t.addChild [lit "LASSchema", lit "dimensions"] (lit "dimension") (dimTree (notes d.name) d))
      (PTree.node [] [(lit "LASSchema", .node [] [(lit "dimensions", .node [] ks)])]) =
    PTree.node [] [(lit "LASSchema", .node [] [(lit "dimensions", .node []
      (ks ++ ds.map fun d => (lit "dimension", .node [] (dimKids (notes d.name) d))))])] := by
  induction ds generalizing ks with
  | nil => simp
  | cons d ds ih =>
    rw [List.foldl_cons]
    have h : (PTree.node [] [(lit "LASSchema", .node [] [(lit "dimensions", .node [] ks)])]).addChild
        [lit "LASSchema", lit "dimensions"] (lit "dimension") (dimTree (notes d.name) d) =
        .node [] [(lit "LASSchema", .node [] [(lit "dimensions", .node [] (ks ++ [(lit "dimension", .node [] (dimKids (notes d.name) d))]))])] := by
      rw [dimTree_eq]
      unfold addChild
      rw [change, kids, changeKid_hit, change, kids, changeKid_hit]
      rfl
    rw [h, ih, List.map_cons, List.append_assoc]
    rfl

theorem fold_dims_empty (notes : Notes) (ds : List Dim) :
    ds.foldl (fun (t : PTree) d => t.addChild [lit "LASSchema", lit "dimensions"] (lit "dimension") (dimTree (notes d.name) d)) PTree.empty =
    PTree.node [] (if ds = [] then [] else [(lit "LASSchema", .node [] (dimsKids notes ds))]) := by
  cases ds with
  | nil => rfl
  | cons d ds =>
    rw [List.foldl_cons, dimTree_eq]
    have h : (PTree.empty).addChild [lit "LASSchema", lit "dimensions"] (lit "dimension") (.node [] (dimKids (notes d.name) d)) =
        .node [] [(lit "LASSchema", .node [] [(lit "dimensions", .node [] [(lit "dimension", .node [] (dimKids (notes d.name) d))])])] := rfl
    rw [h, fold_dims]
    simp [dimsKids]

set_option maxRecDepth 4000 in
theorem schemaTree_eq (notes : Notes) (s : Schema) : schemaTree notes s =
    .node [] [(lit "LASSchema", .node [] (dimsKids notes s.dims.byPosition ++ tailKids (lit "1.0") s.fmt))] := by
  unfold schemaTree
  dsimp only
  rw [fold_dims_empty]
  have h : ∀ (ks : List (List Byte × PTree)) (k v : List Byte), k ∉ ks.map Prod.fst →
      (PTree.node [] [(lit "LASSchema", .node [] ks)]).put [lit "LASSchema", k] v =
        .node [] [(lit "LASSchema", .node [] (ks ++ [(k, .node v [])]))] := by
    intro ks k v hk
    unfold PTree.put
    rw [change, kids, changeKid_hit]
    have := put_new [] ks k v hk
    unfold PTree.put at this
    rw [this]
    rfl
  have h0 : (PTree.node [] (if s.dims.byPosition = [] then [] else [(lit "LASSchema", .node [] (dimsKids notes s.dims.byPosition))])).put
      [lit "LASSchema", lit "version"] (lit "1.0") =
      .node [] [(lit "LASSchema", .node [] (dimsKids notes s.dims.byPosition ++ [(lit "version", .node (lit "1.0") [])]))] := by
    by_cases he : s.dims.byPosition = []
    · rw [if_pos he, dimsKids, if_pos he]
      rfl
    · rw [if_neg he, h]
      rw [dimsKids, if_neg he]
      newKey
  rw [h0]
  unfold dimsKids tailKids
  by_cases he : s.dims.byPosition = []
  · rw [if_pos he, h _ _ _ (by newKey), h _ _ _ (by newKey)]
    rfl
  · rw [if_neg he, h _ _ _ (by newKey), h _ _ _ (by newKey)]
    rfl

theorem num_spec (n : Nat) : num n ≠ [] ∧ (∀ b ∈ num n, isDec b = true) ∧ decimal (num n) = n := by
  obtain ⟨⟨⟨h1, h2⟩, -⟩, hv⟩ := Las2txt.natText_spec n
  unfold num
  generalize Las2txt.natText n = t at *
  have hc : ∀ c ∈ t, 48 ≤ c.toNat ∧ c.toNat ≤ 57 := fun c hc => h2 c hc
  refine ⟨by simpa using h1, ?_, ?_⟩
  · intro b hb
    obtain ⟨c, hm, rfl⟩ := List.mem_map.1 hb
    have := hc c hm
    simp only [isDec, BitVec.toNat_ofNat, Bool.and_eq_true, decide_eq_true_eq]
    omega
  · rw [← hv]
    clear hv h1 h2
    unfold decimal Text.numeral
    rw [List.foldl_map]
    generalize 0 = a
    induction t generalizing a with
    | nil => rfl
    | cons c t ih =>
      have := hc c (by simp)
      rw [List.foldl_cons, List.foldl_cons, ih (fun c hm => hc c (by simp [hm]))]
      congr 1
      have e : c.toNat % 2 ^ 8 = c.toNat := Nat.mod_eq_of_lt (by omega)
      rw [BitVec.toNat_ofNat, e, Nat.mul_comm]
      rfl

theorem scan_digits {t : List Byte} (h : ∀ b ∈ t, isDec b = true) (hn : t ≠ []) : scanInt t = (false, t, []) := by
  obtain ⟨b, r, rfl⟩ := List.exists_cons_of_ne_nil hn
  have hb := h b (by simp)
  have hd : 48 ≤ b.toNat ∧ b.toNat ≤ 57 := by simpa [isDec] using hb
  have hs : isSpace b = false := by
    have : b ≠ 32#8 := by rintro rfl; simp at hd
    simp [isSpace, this]
    omega
  have h45 : b ≠ 45#8 := by rintro rfl; simp at hd
  have h43 : b ≠ 43#8 := by rintro rfl; simp at hd
  have e1 : (b :: r).takeWhile isDec = b :: r := List.takeWhile_eq_self_iff.2 h
  have e2 : (b :: r).dropWhile isDec = [] := List.dropWhile_eq_nil_iff.2 h
  have e0 : (b :: r).dropWhile isSpace = b :: r := by rw [List.dropWhile_cons, hs]; simp
  unfold scanInt
  dsimp only
  rw [e0]
  split
  · rename_i h; exact absurd (List.cons.inj h).1 h45
  · rename_i h; exact absurd (List.cons.inj h).1 h43
  · rw [e1, e2]

theorem getUnsigned_num {w n : Nat} (h : n < 2 ^ w) : getUnsigned w (num n) = some n := by
  obtain ⟨h1, h2, h3⟩ := num_spec n
  unfold getUnsigned
  rw [scan_digits h2 h1]
  simp [h1, h3, h, onlySpace]

theorem getBool_flag (b : Bool) : getBool (flag b) = some b := by
  unfold flag
  obtain ⟨h1, h2, h3⟩ := num_spec (if b then 1 else 0)
  unfold getBool
  rw [scan_digits h2 h1]
  cases b <;> simp_all [onlySpace]

theorem noZero_num (n : Nat) : NoZero (num n) := by
  intro b hb
  have := (num_spec n).2.1 b hb
  rintro rfl
  simp [isDec] at this

theorem noZero_name {n : String} (h : ByteName n) : NoZero (lit n) := by
  intro b hb
  obtain ⟨c, hc, rfl⟩ := List.mem_map.1 hb
  have := h c hc
  intro e
  have := congrArg BitVec.toNat e
  simp at this
  omega

theorem storableKids_append {a b : List (List Byte × PTree)} (ha : StorableKids a) (hb : StorableKids b) : StorableKids (a ++ b) := by
  induction a with
  | nil => exact hb
  | cons p a ih =>
    obtain ⟨k, t⟩ := p
    exact ⟨ha.1, ha.2.1, ih ha.2.2⟩

theorem storable_leaf {v : List Byte} (h : NoZero v) : Storable (.node v []) := ⟨h, trivial⟩

instance (k : List Byte) : Decidable (Key k) := by unfold Key; infer_instance
instance (k : List Byte) : Decidable (NoZero k) := by unfold NoZero; infer_instance

set_option maxRecDepth 4000 in
theorem storable_dim {n : Note} {d : Dim} (hd : ByteName d.name) (hn : NoteText n) : StorableKids (dimKids n d) := by
  unfold dimKids
  apply storableKids_append
  · refine ⟨by decide +kernel, storable_leaf (noZero_name hd), by decide +kernel, storable_leaf hn.description,
      by decide +kernel, storable_leaf (noZero_num _), by decide +kernel, storable_leaf (noZero_num _),
      by decide +kernel, storable_leaf (noZero_num _), by decide +kernel, storable_leaf (noZero_num _),
      by decide +kernel, storable_leaf (noZero_num _), by decide +kernel, storable_leaf (noZero_num _),
      by decide +kernel, storable_leaf (noZero_num _), by decide +kernel, storable_leaf (noZero_num _),
      by decide +kernel, storable_leaf (noZero_num _), trivial⟩
  · cases hr : n.range with
    | none => exact trivial
    | some r =>
      obtain ⟨lo, hi⟩ := r
      have := hn.range lo hi hr
      exact ⟨by decide +kernel, storable_leaf this.1, by decide +kernel, storable_leaf this.2, trivial⟩

theorem mem_byPosition {m : IndexMap} {d : Dim} : d ∈ m.byPosition ↔ d ∈ m := (List.perm_insertionSort _ m).mem_iff

/-- The tree with another version text. -/
def versioned (notes : Notes) (s : Schema) (v : List Byte) : PTree :=
  .node [] [(lit "LASSchema", .node [] (dimsKids notes s.dims.byPosition ++ tailKids v s.fmt))]

theorem storable_versioned {notes : Notes} {s : Schema} {v : List Byte} (hs : Texts notes s) (hv : NoZero v) :
    StorableKids (versioned notes s v).kids := by
  refine ⟨by decide +kernel, ⟨by decide, ?_⟩, trivial⟩
  apply storableKids_append
  · unfold dimsKids
    split
    · exact trivial
    · refine ⟨by decide +kernel, ⟨by decide, ?_⟩, trivial⟩
      have : ∀ d ∈ s.dims.byPosition, ByteName d.name ∧ NoteText (notes d.name) := fun d hd => hs d (mem_byPosition.1 hd)
      clear hs
      generalize s.dims.byPosition = l at *
      rename_i hne; clear hne
      induction l with
      | nil => exact trivial
      | cons d l ih =>
        have hd := this d (by simp)
        exact ⟨by decide +kernel, ⟨by decide, storable_dim hd.1 hd.2⟩, ih fun d hd => this d (by simp [hd])⟩
  · exact ⟨by decide +kernel, storable_leaf hv, by decide +kernel, storable_leaf (by decide +kernel), by decide +kernel,
      storable_leaf (noZero_num _), trivial⟩

theorem read_versioned {notes : Notes} {s : Schema} {v : List Byte} (hs : Texts notes s) (hv : NoZero v) :
    readXml (writeXml (versioned notes s v)) = .ok (versioned notes s v) := read_write _ (storable_versioned hs hv)

/-- A version text that is no 16-bit number: nothing is loaded. -/
theorem loadDimensions_version {dbl : List Byte → Bool} {t c : PTree} (h : walk [lit "LASSchema", lit "version"] t = some c)
    (hc : getUnsigned 16 c.data = none) : loadDimensions dbl t = .throw .runtimeError := by
  unfold loadDimensions
  have hg : ∀ p, (∃ c, getChild p t = .ok c) ∨ getChild p t = .throw .runtimeError := by
    intro p; unfold getChild; split
    · exact Or.inr rfl
    · exact Or.inl ⟨_, rfl⟩
  rcases hg [lit "LASSchema", lit "dimensions"] with ⟨c1, e1⟩ | e1
  · rw [e1]
    simp only [Outcome.bind_ok]
    have h2 := loadDims_fine dbl [] c1.kids
    cases e2 : loadDims dbl [] c1.kids with
    | ub => rw [e2] at h2; exact absurd h2 (by simp [Fine])
    | throw e => rw [e2] at h2; simp only [Fine] at h2; rw [h2]; rfl
    | ok m =>
      simp only [Outcome.bind_ok]
      have h3 := get_fine (getUnsigned 32) [lit "LASSchema", lit "formatid"] t
      cases e3 : get (getUnsigned 32) [lit "LASSchema", lit "formatid"] t with
      | ub => rw [e3] at h3; exact absurd h3 (by simp [Fine])
      | throw e => rw [e3] at h3; simp only [Fine] at h3; rw [h3]; rfl
      | ok f =>
        simp only [Outcome.bind_ok]
        unfold get
        rw [h]
        dsimp only
        rw [hc]
        rfl
  · rw [e1]; rfl

set_option maxRecDepth 4000 in
theorem walk_version (notes : Notes) (s : Schema) (v : List Byte) :
    walk [lit "LASSchema", lit "version"] (versioned notes s v) = some (.node v []) := by
  unfold versioned dimsKids tailKids
  have h1 : ∀ (t : PTree) (r : List (List Byte × PTree)) k, find k ((k, t) :: r) = some t := by
    intro t r k; rw [find, if_pos rfl]
  rw [walk, kids, h1]
  dsimp only
  rw [walk, kids]
  by_cases he : s.dims.byPosition = []
  · rw [if_pos he, List.nil_append, h1]; rfl
  · rw [if_neg he, List.cons_append, List.nil_append, find, if_neg (by decide +kernel), h1]; rfl

theorem nameOf_lit {n : String} (h : ByteName n) : nameOf (lit n) = n := by
  unfold nameOf lit
  rw [List.map_map]
  have : ∀ l : List Char, (∀ c ∈ l, 0 < c.toNat ∧ c.toNat < 256) →
      l.map ((fun b : Byte => Char.ofNat b.toNat) ∘ fun c => BitVec.ofNat 8 c.toNat) = l := by
    intro l hl
    induction l with
    | nil => rfl
    | cons c l ih =>
      have hc := hl c (by simp)
      rw [List.map_cons, ih fun c hm => hl c (by simp [hm])]
      congr 1
      show Char.ofNat (BitVec.ofNat 8 c.toNat).toNat = c
      rw [BitVec.toNat_ofNat, Nat.mod_eq_of_lt hc.2, Char.ofNat_toNat]
  rw [this _ h, String.ofList_toList]

theorem get_ok {α : Type} {tr : List Byte → Option α} {p : List (List Byte)} {t c : PTree} {v : α} (h : walk p t = some c)
    (hv : tr c.data = some v) : get tr p t = .ok v := by
  unfold get; rw [h]; dsimp only; rw [hv]

theorem loadDim_dim {dbl : List Byte → Bool} {n : Note} {d : Dim} (hd : ByteName d.name) (h0 : d.bitSize ≠ 0)
    (h1 : d.bitSize < 2 ^ 32) (h2 : d.position < 2 ^ 32)
    (hr : ∀ lo hi, n.range = some (lo, hi) → dbl lo = true ∧ dbl hi = true) :
    loadDim dbl (.node [] (dimKids n d)) = .ok { d with byteOffset := 0, bitOffset := 0 } := by
  unfold loadDim
  rw [get_ok (c := .node (num d.bitSize) []) (v := d.bitSize) rfl (getUnsigned_num h1)]
  simp only [Outcome.bind_ok]
  rw [get_ok (c := .node (lit d.name) []) (v := lit d.name) rfl rfl]
  simp only [Outcome.bind_ok]
  rw [get_ok (c := .node n.description []) (v := n.description) rfl rfl]
  simp only [Outcome.bind_ok]
  rw [get_ok (c := .node (flag n.signed) []) (v := n.signed) rfl (getBool_flag _)]
  simp only [Outcome.bind_ok]
  rw [get_ok (c := .node (flag n.integer) []) (v := n.integer) rfl (getBool_flag _)]
  simp only [Outcome.bind_ok]
  rw [get_ok (c := .node (flag d.active) []) (v := d.active) rfl (getBool_flag _)]
  simp only [Outcome.bind_ok]
  rw [get_ok (c := .node (flag d.required) []) (v := d.required) rfl (getBool_flag _)]
  simp only [Outcome.bind_ok]
  rw [get_ok (c := .node (num d.position) []) (v := d.position) rfl (getUnsigned_num h2)]
  simp only [Outcome.bind_ok]
  have hrr : readRange dbl (.node [] (dimKids n d)) = .ok () := by
    cases e : n.range with
    | none =>
      have w1 : walk [lit "minimum"] (.node [] (dimKids n d)) = none := by unfold dimKids; rw [e]; rfl
      unfold readRange
      rw [w1]
    | some r =>
      obtain ⟨lo, hi⟩ := r
      obtain ⟨a, b⟩ := hr lo hi e
      have w1 : walk [lit "minimum"] (.node [] (dimKids n d)) = some (.node lo []) := by unfold dimKids; rw [e]; rfl
      have w2 : walk [lit "maximum"] (.node [] (dimKids n d)) = some (.node hi []) := by unfold dimKids; rw [e]; rfl
      unfold readRange
      rw [w1]
      simp only [PTree.data, a, if_true]
      rw [w2]
      simp only [PTree.data, b, if_true]
  rw [hrr]
  simp only [Outcome.bind_ok]
  rw [nameOf_lit hd]
  unfold Dim.make
  rw [if_neg h0]
  rfl

theorem loadDims_dims {dbl : List Byte → Bool} {notes : Notes} (ds : List Dim) (m : IndexMap)
    (hd : ∀ d ∈ ds, ByteName d.name ∧ d.bitSize ≠ 0 ∧ d.bitSize < 2 ^ 32 ∧ d.position < 2 ^ 32 ∧
      ∀ lo hi, (notes d.name).range = some (lo, hi) → dbl lo = true ∧ dbl hi = true)
    (hn : ((m ++ ds).map Dim.name).Nodup) (hp : ((m ++ ds).map Dim.position).Nodup) :
    loadDims dbl m (ds.map fun d => (lit "dimension", .node [] (dimKids (notes d.name) d))) =
      .ok (m ++ ds.map fun d => { d with byteOffset := 0, bitOffset := 0 }) := by
  induction ds generalizing m with
  | nil => simp [loadDims]
  | cons d ds ih =>
    obtain ⟨a, b, c, e, f⟩ := hd d (by simp)
    rw [List.map_cons, loadDims, loadDim_dim a b c e f, bindOk' rfl]
    rw [List.map_append, List.map_cons, List.nodup_append] at hn hp
    have hcl : IndexMap.clash m { d with byteOffset := 0, bitOffset := 0 } = false := by
      apply Schema.clash_false_of
      · intro hm; exact hn.2.2 _ hm d.name (by simp) rfl
      · intro hm; exact hp.2.2 _ hm d.position (by simp) rfl
    rw [IndexMap.insertDim, hcl, if_neg (by decide)]
    refine (ih _ (fun x hx => hd x (by simp [hx]))
      (by rw [List.append_assoc, List.map_append, List.nodup_append]; exact hn)
      (by rw [List.append_assoc, List.map_append, List.nodup_append]; exact hp)).trans ?_
    rw [List.append_assoc]
    rfl

end LibLAS.Xml
