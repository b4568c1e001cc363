import Verif.Proof.Bech32Text
import Verif.Proof.Bech32Check
/-
Error detection: no non-zero error pattern of at most four symbols over at most 88 positions has a zero
syndrome.
-/
namespace Toku.Bech32
open Toku
set_option maxRecDepth 100000

/-! ### iterating the linear map -/

/-- `p`-fold application of the linear step -/
def Lp : Nat → Nat → Nat
  | 0, c => c
  | p + 1, c => L (Lp p c)

theorem Lp_zero (p : Nat) : Lp p 0 = 0 := by
  induction p with
  | zero => rfl
  | succ p ih => simp [Lp, ih, L_zero]

theorem Lp_xor (p a b : Nat) : Lp p (a ^^^ b) = Lp p a ^^^ Lp p b := by
  induction p with
  | zero => rfl
  | succ p ih => simp [Lp, ih, L_xor]

theorem Lp_add (p q c : Nat) : Lp (p + q) c = Lp p (Lp q c) := by
  induction p with
  | zero => simp [Lp]
  | succ p ih => rw [Nat.succ_add]; simp [Lp, ih]

theorem Lp_lt {p c : Nat} (h : c < 2^30) : Lp p c < 2^30 := by
  induction p with
  | zero => exact h
  | succ p ih => exact L_lt ih

theorem Lp_eq_zero {p c : Nat} (h : c < 2^30) (h0 : Lp p c = 0) : c = 0 := by
  induction p with
  | zero => exact h0
  | succ p ih => exact ih (L_eq_zero (Lp_lt h) h0)

theorem run_eq (l : List Nat) : ∀ c, run c l = Lp l.length c ^^^ run 0 l := by
  induction l with
  | nil => intro c; simp [run, Lp]
  | cons v l ih =>
    intro c
    rw [run_cons, run_cons, ih, ih (L 0 ^^^ v), L_zero, Nat.zero_xor, Lp_xor, Nat.xor_assoc]
    rw [List.length_cons, Lp_add l.length 1 c]; rfl

/-! ### the table rows are the iterates -/

theorem chain_get : ∀ (rs : List (List Nat)) (p : Nat), chainOk rs = true → p + 1 < rs.length →
    rs.getD (p + 1) [] = (rs.getD p []).map L := by
  intro rs
  induction rs with
  | nil => intro p _ h; simp at h
  | cons a rs ih =>
    intro p hc hp
    cases rs with
    | nil => simp at hp
    | cons b rs =>
      simp only [chainOk, Bool.and_eq_true, beq_iff_eq] at hc
      cases p with
      | zero => simp [hc.1]
      | succ p =>
        have := ih p hc.2 (by simpa using hp)
        simpa using this

theorem rows_get (p : Nat) (hp : p < 88) : rows.getD p [] = ((List.range 31).map (· + 1)).map (Lp p) := by
  induction p with
  | zero =>
    have := rows_head
    have e : rows.getD 0 [] = (rows.head?).getD [] := by
      cases rows <;> rfl
    rw [e, this]
    simp only [Option.getD_some]
    conv_lhs => rw [← List.map_id ((List.range 31).map (· + 1))]
    rfl
  | succ p ih =>
    rw [chain_get rows p rows_chain (by rw [rows_length]; omega), ih (by omega), List.map_map]
    rfl

theorem mem_row {p e : Nat} (hp : p < 88) (h1 : 1 ≤ e) (h2 : e < 32) : Lp p e ∈ rows.getD p [] := by
  rw [rows_get p hp]
  refine List.mem_map.mpr ⟨e, ?_, rfl⟩
  exact List.mem_map.mpr ⟨e - 1, List.mem_range.mpr (by omega), by omega⟩

theorem getD_lt {α : Type} {l : List α} {i : Nat} {d : α} (h : i < l.length) : l.getD i d = l[i] := by
  simp [List.getD, h]

theorem row_mem_drop {p : Nat} (h1 : 1 ≤ p) (hp : p < 88) : rows.getD p [] ∈ rows.drop 1 := by
  have : p < rows.length := by rw [rows_length]; exact hp
  rw [getD_lt this]
  rw [List.mem_iff_getElem]
  refine ⟨p - 1, by rw [List.length_drop, rows_length]; omega, ?_⟩
  rw [List.getElem_drop]
  congr 1; omega

theorem Lp_hit {p e : Nat} (hp1 : 1 ≤ p) (hp : p < 88) (h1 : 1 ≤ e) (h2 : e < 32) :
    hit (Lp p e / 32) maps = true := by
  have := rows_hit
  rw [List.all_eq_true] at this
  have := this _ (row_mem_drop hp1 hp)
  rw [List.all_eq_true] at this
  exact this _ (mem_row hp h1 h2)

theorem Lp_big {p e : Nat} (hp1 : 1 ≤ p) (hp : p < 88) (h1 : 1 ≤ e) (h2 : e < 32) : 32 ≤ Lp p e := by
  have := rows_big
  rw [List.all_eq_true] at this
  have := this _ (row_mem_drop hp1 hp)
  rw [List.all_eq_true] at this
  simpa using this _ (mem_row hp h1 h2)

theorem rowOk_mem {r1 x : Nat} {xs : List Nat} (h : rowOk r1 xs = true) (hx : x ∈ xs) :
    hit ((r1 ^^^ x) / 32) maps = false := by
  induction xs with
  | nil => simp at hx
  | cons y ys ih =>
    simp only [rowOk, Bool.and_eq_true, Bool.not_eq_true'] at h
    rcases List.mem_cons.mp hx with rfl | hx
    · exact h.1
    · exact ih h.2 hx

theorem rowsOk_mem {r1 : Nat} {rs : List (List Nat)} {r : List Nat} (h : rowsOk r1 rs = true) (hr : r ∈ rs) :
    rowOk r1 r = true := by
  induction rs with
  | nil => simp at hr
  | cons y ys ih =>
    simp only [rowsOk, Bool.and_eq_true] at h
    rcases List.mem_cons.mp hr with rfl | hr
    · exact h.1
    · exact ih h.2 hr

theorem pairsOk_get : ∀ (rs : List (List Nat)) (i j : Nat), pairsOk rs = true → i < j → j < rs.length →
    rowOk ((rs.getD i []).headD 0) (rs.getD j []) = true := by
  intro rs
  induction rs with
  | nil => intro i j _ _ h; simp at h
  | cons r rs ih =>
    intro i j h hij hj
    cases r with
    | nil => simp [pairsOk] at h
    | cons a t =>
      simp only [pairsOk, Bool.and_eq_true] at h
      cases j with
      | zero => omega
      | succ j =>
        have hj' : j < rs.length := by simpa using hj
        cases i with
        | zero =>
          simp only [List.getD_cons_zero, List.headD_cons, List.getD_cons_succ]
          apply rowsOk_mem h.1
          rw [getD_lt hj']
          exact List.getElem_mem hj'
        | succ i =>
          simp only [List.getD_cons_succ]
          exact ih i j h.2 (by omega) hj'

theorem pair_miss {p1 p2 e : Nat} (h1 : 1 ≤ p1) (h12 : p1 < p2) (h2 : p2 < 88) (he1 : 1 ≤ e) (he2 : e < 32) :
    hit ((Lp p1 1 ^^^ Lp p2 e) / 32) maps = false := by
  have := pairsOk_get (rows.drop 1) (p1 - 1) (p2 - 1) pairs_checked (by omega)
    (by rw [List.length_drop, rows_length]; omega)
  have g : ∀ p, 1 ≤ p → (rows.drop 1).getD (p - 1) [] = rows.getD p [] := by
    intro p hp
    rw [List.getD_eq_getElem?_getD, List.getD_eq_getElem?_getD, List.getElem?_drop]
    congr 2; omega
  rw [g p1 h1, g p2 (by omega)] at this
  have hh : (rows.getD p1 []).headD 0 = Lp p1 1 := by
    rw [rows_get p1 (by omega)]
    rfl
  rw [hh] at this
  exact rowOk_mem this (mem_row h2 he1 he2)

/-! ### scaling by the field element x -/

/-- multiplication of every 5-bit symbol by x in GF(2)[x]/(x^5+x^3+1) -/
def M (x : Nat) : Nat :=
  ((x &&& 519552495) <<< 1) ^^^ (((x &&& 554189328) >>> 4) ^^^ (((x &&& 554189328) >>> 4) <<< 3))

theorem M_xor (a b : Nat) : M (a ^^^ b) = M a ^^^ M b := by
  unfold M
  simp only [Nat.and_xor_distrib_right, Nat.shiftLeft_xor_distrib, Nat.shiftRight_xor_distrib]
  generalize (a &&& 519552495) <<< 1 = p
  generalize (b &&& 519552495) <<< 1 = q
  generalize (a &&& 554189328) >>> 4 = r
  generalize (b &&& 554189328) >>> 4 = s
  rw [xor4 r s, xor4 p q]

theorem M_zero : M 0 = 0 := by decide

/-- two xor-linear maps agreeing on the powers of two agree below 2^n -/
theorem linear_ext {f g : Nat → Nat} (hf : ∀ a b, f (a ^^^ b) = f a ^^^ f b) (hg : ∀ a b, g (a ^^^ b) = g a ^^^ g b)
    (n : Nat) (h : ∀ i, i < n → f (2^i) = g (2^i)) : ∀ x, x < 2^n → f x = g x := by
  have f0 : f 0 = 0 := by have := hf 0 0; simpa using this
  have g0 : g 0 = 0 := by have := hg 0 0; simpa using this
  induction n with
  | zero => intro x hx; have : x = 0 := by omega
            subst this; rw [f0, g0]
  | succ n ih =>
    have ih' := ih (fun i hi => h i (by omega))
    intro x hx
    by_cases hlt : x < 2^n
    · exact ih' x hlt
    · have hy : x - 2^n < 2^n := by rw [Nat.pow_succ] at hx; omega
      have e : x = (1 * 2^n) ^^^ (x - 2^n) := by rw [xor_add hy]; omega
      rw [e, Nat.one_mul, hf, hg, h n (by omega), ih' _ hy]

theorem ML_comm {x : Nat} (hx : x < 2^30) : M (L x) = L (M x) := by
  refine linear_ext (f := fun x => M (L x)) (g := fun x => L (M x)) ?_ ?_ 30 ?_ x hx
  · intro a b; simp only [L_xor, M_xor]
  · intro a b; simp only [L_xor, M_xor]
  · have : ∀ i : Fin 30, M (L (2 ^ i.val)) = L (M (2 ^ i.val)) := by decide +kernel
    intro i hi; exact this ⟨i, hi⟩

theorem M_Lp {x : Nat} (hx : x < 2^30) (p : Nat) : M (Lp p x) = Lp p (M x) := by
  induction p with
  | zero => rfl
  | succ p ih => simp only [Lp]; rw [ML_comm (Lp_lt hx), ih]

/-- `k`-fold scaling -/
def Mk : Nat → Nat → Nat
  | 0, c => c
  | k + 1, c => M (Mk k c)

theorem M_sym {e : Nat} (h : e < 32) : M e < 32 := by
  have : ∀ e : Fin 32, M e.val < 32 := by decide +kernel
  exact this ⟨e, h⟩

theorem M_sym_pos {e : Nat} (h : e < 32) (h1 : 1 ≤ e) : 1 ≤ M e := by
  have : ∀ e : Fin 32, 1 ≤ e.val → 1 ≤ M e.val := by decide +kernel
  exact this ⟨e, h⟩ h1

theorem Mk_sym {e : Nat} (h : e < 32) (k : Nat) : Mk k e < 32 := by
  induction k with
  | zero => exact h
  | succ k ih => exact M_sym ih

theorem Mk_sym_pos {e : Nat} (h : e < 32) (h1 : 1 ≤ e) (k : Nat) : 1 ≤ Mk k e := by
  induction k with
  | zero => exact h1
  | succ k ih => exact M_sym_pos (Mk_sym h k) ih

theorem Mk_xor (k a b : Nat) : Mk k (a ^^^ b) = Mk k a ^^^ Mk k b := by
  induction k with
  | zero => rfl
  | succ k ih => simp only [Mk, ih, M_xor]

theorem Mk_Lp {e : Nat} (h : e < 32) (k p : Nat) : Mk k (Lp p e) = Lp p (Mk k e) := by
  induction k with
  | zero => rfl
  | succ k ih =>
    simp only [Mk]
    rw [ih, M_Lp]
    have := Mk_sym h k
    omega

theorem exists_scale {e : Nat} (h : e < 32) (h1 : 1 ≤ e) : ∃ k, Mk k e = 1 := by
  have : ∀ e : Fin 32, 1 ≤ e.val → ∃ k : Fin 31, Mk k.val e.val = 1 := by decide +kernel
  obtain ⟨k, hk⟩ := this ⟨e, h⟩ h1
  exact ⟨k.val, hk⟩

/-! ### sums of up to three terms are never below 32 -/

theorem xor_lt32_div {a b : Nat} (h : a ^^^ b < 32) : a / 32 = b / 32 := by
  have : (a ^^^ b) / 32 = 0 := Nat.div_eq_of_lt h
  rw [show (32 : Nat) = 2^5 from rfl, ← Nat.shiftRight_eq_div_pow, Nat.shiftRight_xor_distrib] at this
  have := xor_eq_zero this
  rwa [Nat.shiftRight_eq_div_pow, Nat.shiftRight_eq_div_pow] at this

theorem two_big {p1 p2 e1 e2 : Nat} (h1 : 1 ≤ p1) (h12 : p1 < p2) (h2 : p2 < 88) (a1 : 1 ≤ e1) (b1 : e1 < 32)
    (a2 : 1 ≤ e2) (b2 : e2 < 32) : 32 ≤ Lp p2 e2 ^^^ Lp p1 e1 := by
  by_contra hlt
  obtain ⟨k, hk⟩ := exists_scale b1 a1
  have h' := Mk_sym (Nat.lt_of_not_le hlt) k
  rw [Mk_xor, Mk_Lp b2, Mk_Lp b1, hk, Nat.xor_comm] at h'
  have := pair_miss h1 h12 h2 (Mk_sym_pos b2 a2 k) (Mk_sym b2 k)
  rw [Nat.div_eq_of_lt h', zero_hit] at this
  cases this

theorem three_big {p1 p2 p3 e1 e2 e3 : Nat} (h1 : 1 ≤ p1) (h12 : p1 < p2) (h23 : p2 < p3) (h3 : p3 < 88)
    (a1 : 1 ≤ e1) (b1 : e1 < 32) (a2 : 1 ≤ e2) (b2 : e2 < 32) (a3 : 1 ≤ e3) (b3 : e3 < 32) :
    32 ≤ Lp p3 e3 ^^^ (Lp p2 e2 ^^^ Lp p1 e1) := by
  by_contra hlt
  obtain ⟨k, hk⟩ := exists_scale b1 a1
  have h' := Mk_sym (Nat.lt_of_not_le hlt) k
  rw [Mk_xor, Mk_xor, Mk_Lp b3, Mk_Lp b2, Mk_Lp b1, hk, Nat.xor_comm (Lp p2 _)] at h'
  have := pair_miss h1 h12 (by omega) (Mk_sym_pos b2 a2 k) (Mk_sym b2 k)
  rw [← xor_lt32_div h', Lp_hit (by omega) h3 (Mk_sym_pos b3 a3 k) (Mk_sym b3 k)] at this
  cases this

/-! ### from error lists to terms -/

/-- the non-zero entries with their distance from the end -/
def terms : List Nat → List (Nat × Nat)
  | [] => []
  | e :: l => if e = 0 then terms l else (l.length, e) :: terms l

/-- syndrome of a list of terms -/
def syn : List (Nat × Nat) → Nat
  | [] => 0
  | (p, e) :: ts => Lp p e ^^^ syn ts

theorem run_terms (l : List Nat) : run 0 l = syn (terms l) := by
  induction l with
  | nil => rfl
  | cons e l ih =>
    rw [run_cons, L_zero, Nat.zero_xor, run_eq, ih]
    conv_rhs => unfold terms
    by_cases h : e = 0
    · subst h; simp [Lp_zero]
    · rw [if_neg h]; rfl

theorem terms_length (l : List Nat) : (terms l).length = l.countP (· ≠ 0) := by
  induction l with
  | nil => rfl
  | cons e l ih =>
    unfold terms
    by_cases h : e = 0
    · simp [h, ih]
    · simp [h, ih]

/-- well-formed term lists: strictly decreasing positions below `n`, values 1..31 -/
def TOk : Nat → List (Nat × Nat) → Prop
  | _, [] => True
  | n, (p, e) :: ts => p < n ∧ 1 ≤ e ∧ e < 32 ∧ TOk p ts

theorem TOk_mono {n m : Nat} (h : n ≤ m) : ∀ {ts}, TOk n ts → TOk m ts
  | [], _ => trivial
  | (p, e) :: ts, ⟨h1, h2, h3, h4⟩ => ⟨by omega, h2, h3, h4⟩

theorem terms_ok {l : List Nat} (h : ∀ e ∈ l, e < 32) : TOk l.length (terms l) := by
  induction l with
  | nil => trivial
  | cons e l ih =>
    have := ih (fun x hx => h x (by simp [hx]))
    unfold terms
    by_cases h0 : e = 0
    · rw [if_pos h0]; exact TOk_mono (by simp) this
    · rw [if_neg h0]
      exact ⟨by simp, by omega, h e (by simp), this⟩

/-- `a` at position `p ≥ j` is the `j`-shift of position `p - j` -/
theorem Lp_split {p j : Nat} (h : j ≤ p) (e : Nat) : Lp p e = Lp j (Lp (p - j) e) := by
  rw [← Lp_add]; congr 1; omega

theorem syn_ne_zero {n : Nat} (hn : n ≤ 88) {ts : List (Nat × Nat)} (h : TOk n ts) (hlen : ts.length ≤ 4)
    (hne : ts ≠ []) : syn ts ≠ 0 := by
  match ts, h, hlen, hne with
  | [(p, e)], ⟨_, h1, h2, _⟩, _, _ =>
    simp only [syn, Nat.xor_zero]
    intro h0
    have := Lp_eq_zero (by omega) h0
    omega
  | [(p, e), (j, d)], ⟨hp, h1, h2, hj, d1, d2, _⟩, _, _ =>
    simp only [syn, Nat.xor_zero]
    intro h0
    rw [Lp_split (Nat.le_of_lt hj) e, ← Lp_xor] at h0
    have := Lp_eq_zero (Nat.xor_lt_two_pow (Lp_lt (by omega)) (by omega)) h0
    have := xor_eq_zero this
    have := Lp_big (p := p - j) (by omega) (by omega) h1 h2
    omega
  | [(p2, e2), (p1, e1), (j, d)], ⟨hp2, h2, h2', hp1, h1, h1', hj, d1, d2, _⟩, _, _ =>
    simp only [syn, Nat.xor_zero]
    intro h0
    rw [Lp_split (Nat.le_of_lt hj) e1, Lp_split (show j ≤ p2 by omega) e2, ← Lp_xor, ← Lp_xor,
      ← Nat.xor_assoc] at h0
    have := Lp_eq_zero (Nat.xor_lt_two_pow (Nat.xor_lt_two_pow (Lp_lt (by omega)) (Lp_lt (by omega))) (by omega)) h0
    have := xor_eq_zero this
    have := two_big (p1 := p1 - j) (p2 := p2 - j) (by omega) (by omega) (by omega) h1 h1' h2 h2'
    omega
  | [(p3, e3), (p2, e2), (p1, e1), (j, d)], ⟨hp3, h3, h3', hp2, h2, h2', hp1, h1, h1', hj, d1, d2, _⟩, _, _ =>
    simp only [syn, Nat.xor_zero]
    intro h0
    rw [Lp_split (Nat.le_of_lt hj) e1, Lp_split (show j ≤ p2 by omega) e2, Lp_split (show j ≤ p3 by omega) e3,
      ← Lp_xor, ← Lp_xor, ← Lp_xor, ← Nat.xor_assoc (Lp (p2 - j) e2), ← Nat.xor_assoc] at h0
    have := Lp_eq_zero (Nat.xor_lt_two_pow (Nat.xor_lt_two_pow (Lp_lt (by omega))
      (Nat.xor_lt_two_pow (Lp_lt (by omega)) (Lp_lt (by omega)))) (by omega)) h0
    have := xor_eq_zero this
    have := three_big (p1 := p1 - j) (p2 := p2 - j) (p3 := p3 - j) (by omega) (by omega) (by omega) (by omega)
      h1 h1' h2 h2' h3 h3'
    omega
  | _ :: _ :: _ :: _ :: _ :: _, _, hl, _ => simp only [List.length_cons] at hl; omega

/-- At most four wrong symbols among at most 88 never keep the checksum valid. -/
theorem verify_detects (hrp D D' : Bytes) (hl : D'.length = D.length) (hn : D.length ≤ 88)
    (hD : ∀ b ∈ D, b.toNat < 32) (hD' : ∀ b ∈ D', b.toNat < 32)
    (h1 : 1 ≤ (D.zip D').countP (fun p => p.1 ≠ p.2)) (h4 : (D.zip D').countP (fun p => p.1 ≠ p.2) ≤ 4)
    (hv : verifyChecksum hrp D = true) : verifyChecksum hrp D' = false := by
  by_contra hv'
  rw [Bool.not_eq_false] at hv'
  unfold verifyChecksum at hv hv'
  rw [beq_iff_eq] at hv hv'
  set E := List.zipWith (fun a b : UInt8 => a.toNat ^^^ b.toNat) D D' with hE
  have hz : run 0 E = 0 := by
    have e1 : polymod (hrpExpand hrp ++ D.map UInt8.toNat) ^^^ polymod (hrpExpand hrp ++ D'.map UInt8.toNat) = 0 := by
      rw [hv, hv']; rfl
    have e2 : ∀ X : Bytes, polymod (hrpExpand hrp ++ X.map UInt8.toNat) =
        run (run 1 (hrpExpand hrp)) (X.map UInt8.toNat) := by
      intro X; rw [← run_append]; rfl
    rw [e2, e2, run_xor _ _ _ _ (by simp [hl]), Nat.xor_self, List.zipWith_map] at e1
    exact e1
  rw [run_terms] at hz
  have hcount : E.countP (· ≠ 0) = (D.zip D').countP (fun p => p.1 ≠ p.2) := by
    rw [hE]
    clear hE hz hv hv' h1 h4 hD hD' hn E
    induction D generalizing D' with
    | nil => cases D' <;> simp
    | cons a D ih =>
      cases D' with
      | nil => simp at hl
      | cons b D' =>
        rw [List.zipWith_cons_cons, List.zip_cons_cons, List.countP_cons, List.countP_cons,
          ih D' (by simpa using hl)]
        congr 1
        have : (a.toNat ^^^ b.toNat ≠ 0) ↔ a ≠ b := by
          constructor
          · intro h he; subst he; simp at h
          · intro h he; exact h (UInt8.toNat_inj.mp (xor_eq_zero he))
        simp only [decide_eq_true_eq, this]
  have hlen : E.length = D.length := by simp [hE, hl]
  have hE32 : ∀ e ∈ E, e < 32 := by
    intro e he
    rw [hE] at he
    obtain ⟨i, hi, rfl⟩ := List.mem_iff_getElem.mp he
    rw [List.getElem_zipWith]
    exact Nat.xor_lt_two_pow (n := 5) (hD _ (List.getElem_mem _)) (hD' _ (List.getElem_mem _))
  refine syn_ne_zero (n := E.length) (by omega) (terms_ok hE32) ?_ ?_ hz
  · rw [terms_length, hcount]; exact h4
  · intro he
    have := terms_length E
    rw [he, hcount, List.length_nil] at this
    omega

end Toku.Bech32
