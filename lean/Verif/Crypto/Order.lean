import Verif.Crypto.PedersenProps
/-!
# The order of the generator

The multiple of the generator with the curve order is the point at infinity: the kernel adds up the table entries for the digits of
the order.
-/
namespace Verif.Crypto

/-- The Montgomery representations of the partial sums: chunk, digit and the coordinates of the sum so far. -/
def orderCert : List (Nat × Nat × Nat × Nat) := [
  (1, 2, 0x311ab958c52ada98a0af1b83292352967bccfa35e5113ca8d6aa290a1afbac,
    0x66ec86c4913f53e9274b9e77a8bd64f8e7679442cf4c52b62b5f281eff909f2),
  (2, 13, 0xf539ffe1221e6aee0de16992c29eccfa669e5eee4c480bbd8652ffdfa2376e,
    0x556c1a3e498783b71e679de3d83cc1965ea4f20fae379a86497fdcf6eab4afe),
  (3, 4, 0x7cb5ff92084ce57db4a09c9eef637af3f8e60984f5fb0154d980c44c1e585a9,
    0x7cc5ec4aa65e26dc200936a3054b6e1b9ad68e18e63044fbe54b3d0bae516f1),
  (4, 6, 0xfc46ad8291a2b1ba720c272e9f9e76a0fd18499195edbcbbd688cd38df750,
    0x3d55ff4fbcceeba8d26f30c00962e142a79f2f9e1cc55b949e3b0739b8b33cf),
  (5, 12, 0x36099142aa566a901e7ccc9d33744c088b8ac748635b9051c7a362a24997867,
    0x4d26deaae6b0a4d6c3995636690db6e983229722066e63270b0bcd326bec899),
  (6, 13, 0xb12a3e0ead206bd1021de4b49894b81352fdaa240b75aa7bb716a9d2fa5e24,
    0x3288a1c41451e9042997791a9f827ddbaf9a2dd252b84caacb961afe4ccfeba),
  (7, 10, 0x353248a2897493506f0c0049affcb33c80e200c23175e0c87f47fd626fcf2c4,
    0x28c423d2f14144f69d5c3e610ed61d829fe411c85798ba5aeb2d06191a755e7),
  (8, 1, 0x2db058267c7419d6ba1bcc2e45495aa4196efd5e0588867e67845c5a5c2ed88,
    0x30293c0dc0e4b7b26231b643afe754850eabe0dd3dff5b7f1274cf56b97475e),
  (9, 4, 0x7112b051d2b16fdcf145584e4ec65cc015b3afdaf2ff26ab54e959ad2e66b75,
    0xd7094c975bfa08a2069a914d43b3972ea0494cd9037308a27f7d5cd7e8735a),
  (10, 2, 0x37c94ef3c2c95c57d5dfd85cfc00edc4797adf993d58c7b0482dd4512af4994,
    0x3bf79501c2a9a5aa302893185b4067cbf3dc76d56ba7fe5069a2cc121d89726),
  (11, 10, 0x7ea052bd913be1bb21fd4a1442c8303392267790aff626a0ad2f8baa333da5a,
    0x78aea89f9371e3ace0fd15b394452f5bb7d7a1403ea8c16c2dd82fbc8c1d9dc),
  (12, 6, 0x5fd82d8062135292396738547a95896983e78a79b4f99f466d29e0a946907cd,
    0x87a43b904565cf79daa0398f9d952a98a8c5f323ff0aa68313387d79088cbe),
  (13, 6, 0x6f01a22b37352490f431b75e13fc2b25111c3fbc0b3ed16dea5f75e60b837c8,
    0x57cafa228402f86afc195d46eee04da1f7cf266a560778b78334d55e55d99a5),
  (14, 14, 0x2446ba1f9c02f56f2e7c71b30a7efbcdb8df799c0d7bb486fdf6bdecd26d833,
    0x6e7b3d93509133ec3997c18f53e7c4b1c25d46418494f072b3be075ec5bcfea),
  (15, 1, 0x3dced45dbfe3fb63a025c562ff18cede21b4b299233d25a52825828d3a0033,
    0x48b099a6e006c36a21f969a520ac7702662126a4e48ae5a04d8dd1e2c49ec55),
  (16, 2, 0x14b4c5d146ef39925dd93d17798a632021e05e619850538343388f68c2cb1c5,
    0x7ccb1f8105b49e3abe62037def3d7ba932e6cfc2c093aeb16abb90904430613),
  (17, 3, 0x640ee8adfc3bbd15732d3526fc73d1d1ca4df06e9a30e1518c339af06e5ae53,
    0x40dfca6ab8767844dc861341c5a673c6964937fbc938198ee21a72517458942),
  (18, 2, 0x58f6d807f9c5b5724dd73fcc78f78d494eb20d57ceb169b956a8b5a677cfefc,
    0x6b25b045c43fd13f73a7b48938369c55c056b414b9c75a808d14750c7fc0de0),
  (19, 11, 0x3c20c617364670b8f98bbb88481969aea9a784b07c57334dcc3658277a0ad7,
    0x6426b086912952332fa2915e24f1a3d469a8d8532be5ac289befb6b5e008827),
  (20, 7, 0x43dcae948ac2e2c00410882da1bdb6d7b6dcdb9e231c40dcffff4d9202a5593,
    0x35d093f981877575f253777cce651b79fd4521cacd9648c4ebeb8b93c28fe8c),
  (21, 14, 0x71a5a17d65ec23a8afb7f86bb3b8996f217a56f265ec486699c411d3da5fd26,
    0x4f2b5a6e5952088b6a2c6af80674661171095d154b9f81d87f51579f2be41b1),
  (22, 10, 0x2e6dc8d770a2e3fe4e50c7f153e62dc10f034f1ff0d013b50e812c098c90974,
    0x5a00f5711225c6666a11fb610a1e041d048ab907e09471aefbe1db5a0598dcd),
  (23, 12, 0x4f318f30f53adcdb66dc5b1dced2d1394db802c7bcb3fcebb4498b2c6286e9b,
    0xe166b578ba5dcba747fc77ade78a7911b39b653367d094bc35739a8968ea6f),
  (24, 13, 0x286f394abf826d254fe1eb2365a15e7c0959cc5acd8c161cc1337f4c4883484,
    0x7e69c258e6e75c6743bcc7b03f21e5c8d94cf08e3c180344707f59f8713afa6),
  (25, 6, 0x1788344803d85ee6eaf8e105cfa262866ec23a7336722ded0783f1d7710c128,
    0x4c5ec7dfe2aae82380bc10c308eaa3f97b6f2ffd738f812865ce9a23c24929f),
  (26, 2, 0x79d9359405cf0650493f4848d158c6ce487e9dc4ce8154a4e8b4c541f2f8730,
    0xea31958798264650eb937d9cf822fc142a6511890147071014ff191748f3f0),
  (27, 1, 0x4d39745051886e6ae5a228343a99323226a645aaad175433d88b8a47314cdc5,
    0xf0711e3662287045da28ebcdc524256a711c2783992f596b9ec016929eb5b9),
  (28, 1, 0x11d09fa40786c0c9322c67c504610d2efe3a729ae7c9f6acfcac55f9132866d,
    0x4dc738f0229be3c7d350e8e25d45596f6f093cb465d61b5062460c78ca917b4),
  (29, 8, 0x20a2e78ac61572090ab178b0132bc6632471ab2376d003068fa8ad4c0bbd9ee,
    0x6a68c924e83d52a5ef4e274c0d4c1c80d53c4d3a34d34d5c47095316d040622),
  (30, 7, 0x15e37706ef811bcea956d5e1cc17d9fad13f1ac3312f617989793a1a1caddc7,
    0x53b58ad62357db93ceb69239eccfea553082fc77e06179413bb730674664cfb),
  (31, 11, 0x797c11144c3690109e1d22d40a231bf38769564c9832b8bd7d447bc9a4956ff,
    0x10575f2defca2c2fd92f19671baf5ae555e777455fb65cc4ccb05f0b1a2aca5),
  (32, 15, 0x1704ff052222c14f0ae2b10a0f8cfcd4ba6f913bc05b03a976dcc1ddcd3b39c,
    0x2aa9d72e859045c5cdbaed489e8f0d43278cbba55be42cc0cadcfe39d85680e),
  (33, 15, 0x274116fedb9aae5ad90868d35c94d97aa99258114df7c8146a80583731dc70b,
    0x59e974c8978d50a43c6c8fa3072ffc4071dc079152f046ecf228ed5b2573073),
  (34, 15, 0x8f0c76dedf31fe3713dc50a15f02bb45ac44aedd6e8f7aed0aeeaa6fdf9a80,
    0x31a5b08c898f075afc4a72373be55b57132e96141241decdbd58290316e2c73),
  (35, 15, 0x741c864351bbe91395a532c3222bcc9ffde695080ca68369a3f154503628c,
    0x291f0c49cdd1322d81a47357127af281f51da581c057c8e2e4a97cf9ea79718),
  (36, 15, 0x2effb4e46958215c29f40d8e312ff85ea26069e13965120f6368170da5bc488,
    0x411a9742f2d90f7678aa0e3bae12a94a800caec2582d651964eabf0ceeb1b6e),
  (37, 15, 0x46ae6808edf0f4369dd31f4b328eee77a0c697c3c2833cd69b99c75315bd8b3,
    0x25f4295cd780c2650463282611de35570168e3bac1ee85cbec21a89ffc10a3c),
  (38, 15, 0x6e0eae0577a3c0fc0192f111d6966a0f0e3b278e3aff85f850614e72d58a90d,
    0x6279302a89e755d0ec8bd25966d94e6d5731e071c0b898d15feddb86756dbb),
  (39, 15, 0x7a48503c4a8bab6b1fafac1564dfdcbafc5354a41e3291bee0622d1a135f99a,
    0x534f50dc1551adb0fa8ecd9a006b98940651ffcc59414888e60fb35b93ce7b0),
  (40, 15, 0x4a61444a51d7e3a1e92eeab8cd2650a953d09eefb700d9b8803b055d35a42c5,
    0x61769dd5c92e8e06a9439ca14961ba326cbda05f61ed861ee6b8628e1666081),
  (41, 15, 0x3f5ab78e04e6cab9a572bf8a6691e3ee359b52028b413d4e3b387180a8d243e,
    0x3fd4d4694d27ec6641b9167ebc30b9b1c8192aabb8e3afa2b5cbffffffff467),
  (42, 15, 0x7d7df7a044387cc916f85c9c0b89010d47eda3dd10c0a103942e6e0ebe3bc70,
    0x17e074baaade320fb7f76849fecabbac59824b8a1b575ad97c6e60181e07df3),
  (43, 15, 0x5ae1782035fe698fb058531f407d3d46c3b3b83f6e8c2d9efa165f0eda97f83,
    0x1626dfef6d0804931f8a78508c37cd23ccfe5c97e75843fd558a1dc4bd2bf22),
  (44, 15, 0x25cd4d6046e78dffeb313ce82c3c0dea49d0bfcafef6ef5c4585807485ab075,
    0x11ade8dcdb1f00b10a6eb5ddf4a90d6528e51c9f6bbdb49bce0374a5adf7298),
  (45, 15, 0x4f8b8310580d41d453ecf7349ba2d2ca46cd6579bee0784904469899f87c0fd,
    0x4e2ed44ecd13b35870f9d7d5d9575130f360149c3c3f88c12c7b4793299a32e),
  (46, 15, 0x150e1b6b3f729b0185c72576a4415c65540395939608252c90bc4434bd574b,
    0x580cb3949f6c23707eba1f915b603db60e5e9816df14f543e65f0a3fffc4e54),
  (47, 15, 0x3a4a20c9fda0d5d21c9592bc3c2861f2f26ff3e1cb0052ef9adbb84004b5a2f,
    0x593b74fe6f8a70de368061ded49f0b31ed8681339f3c1361e50870699817d0b),
  (49, 1, 0x731abb6725ff680dcced8666b41f3077ca5836d448afc636d2f473215b9d290,
    0x10570929ced7f79803a3530c51bf106f50713b3745b5b67ae00dfc1ef7a3e47)]

/-- The entry of the table of the generator for a digit of a chunk. -/
def rawEntry (i o : Nat) : Nat × Nat :=
  ((rawG.map (rawPoints 15)).flatten[i * 15 + (o - 1)]?).getD (0, 0)

/-- The partial sums are right. -/
def sumOk : Nat × Nat → List (Nat × Nat × Nat × Nat) → Bool
  | _, [] => true
  | p, (i, o, s) :: l => Nat.blt i 63 && Nat.blt 0 o && Nat.blt o 16 && addOk p (rawEntry i o) s && sumOk s l

/-- The multiple that the digits stand for. -/
def certValue (l : List (Nat × Nat × Nat × Nat)) : Nat := (l.map fun c => c.2.1 * 16 ^ c.1).sum

theorem rawG_ok : tableOk 15 (gX * mRp % pN, gY * mRp % pN) (rawG.map (rawPoints 15)) = true := by decide +kernel

theorem rawEntry_spec {G : StarkPoint} (hG : HasCoords G (gX : Spec.F) (gY : Spec.F)) {i o : Nat} (hi : i < 63) (h0 : 0 < o)
    (ho : o < 16) : MontPt ((o * 16 ^ i) • G) (rawEntry i o) := by
  obtain ⟨q, h1, h2⟩ := tableOk_spec (MontPt.of hG) rawG_ok i (o - 1) hi (by omega)
  rw [show o - 1 + 1 = o by omega] at h2
  unfold rawEntry
  rw [h1]; exact h2

theorem sumOk_spec {G : StarkPoint} (hG : HasCoords G (gX : Spec.F) (gY : Spec.F)) {l : List (Nat × Nat × Nat × Nat)} :
    ∀ {p : Nat × Nat} {m : Nat}, MontPt (m • G) p → sumOk p l = true →
      MontPt ((m + certValue l) • G) ((l.getLast?.map (·.2.2)).getD p) := by
  induction l with
  | nil => intro p m hp _; exact hp
  | cons c l ih =>
    intro p m hp h
    obtain ⟨i, o, s⟩ := c
    rw [sumOk] at h
    simp only [Bool.and_eq_true, Nat.blt_eq] at h
    obtain ⟨⟨⟨⟨h1, h2⟩, h3⟩, h4⟩, h5⟩ := h
    have hs := addOk_spec hp (rawEntry_spec hG h1 h2 h3) h4
    rw [← add_nsmul] at hs
    have := ih hs h5
    have e : ((((i, o, s) :: l).getLast?.map (·.2.2)).getD p) = ((l.getLast?.map (·.2.2)).getD s) := by
      rw [List.getLast?_cons]
      cases l.getLast? <;> rfl
    rw [e]
    have e2 : m + certValue ((i, o, s) :: l) = m + o * 16 ^ i + certValue l := by
      unfold certValue; rw [List.map_cons, List.sum_cons, add_assoc]
    rw [e2]; exact this

theorem orderCert_ok : sumOk (rawEntry 0 15) orderCert = true := by decide +kernel

theorem orderCert_value : 15 + certValue orderCert + 8 * 16 ^ 62 = Kind.scalar.prime := by decide +kernel

theorem orderCert_last : ((orderCert.getLast?.map (·.2.2)).getD (rawEntry 0 15)).1 = (rawEntry 62 8).1 ∧
    ((orderCert.getLast?.map (·.2.2)).getD (rawEntry 0 15)).2 ≠ (rawEntry 62 8).2 := by decide +kernel

/-- The curve order times the generator is the point at infinity. -/
theorem order_smul {G : StarkPoint} (hG : HasCoords G (gX : Spec.F) (gY : Spec.F)) : Kind.scalar.prime • G = 0 := by
  have h0 := rawEntry_spec hG (i := 0) (o := 15) (by decide) (by decide) (by decide)
  rw [pow_zero, mul_one] at h0
  have h1 := sumOk_spec hG h0 orderCert_ok
  have h2 := rawEntry_spec hG (i := 62) (o := 8) (by decide) (by decide) (by decide)
  obtain ⟨ex, ey⟩ := orderCert_last
  obtain ⟨_, b1, x1, y1, c1, d1, f1⟩ := h1
  obtain ⟨_, b2, x2, y2, c2, d2, f2⟩ := h2
  have hx : x1 = x2 := by
    apply mul_right_cancel₀ mR_ne
    rw [d1, d2, ex]
  have hy : y1 ≠ y2 := by
    rintro rfl
    exact ey (cast_inj b1 b2 (f1.symm.trans f2))
  rw [← orderCert_value, add_nsmul]
  subst hx
  exact c1.opposite c2 hy

/-- Multiples of the generator vanish exactly for multiples of the curve order. -/
theorem smul_eq_zero_iff {G : StarkPoint} (hG : HasCoords G (gX : Spec.F) (gY : Spec.F)) (k : Nat) :
    k • G = 0 ↔ Kind.scalar.prime ∣ k := by
  have h1 : addOrderOf G ∣ Kind.scalar.prime := addOrderOf_dvd_of_nsmul_eq_zero (order_smul hG)
  have h2 : addOrderOf G = Kind.scalar.prime := by
    rcases (Nat.dvd_prime (C29_prime .scalar)).1 h1 with h | h
    · exact absurd (AddMonoid.addOrderOf_eq_one_iff.1 h) hG.ne_zero
    · exact h
  rw [← h2]; exact addOrderOf_dvd_iff_nsmul_eq_zero.symm

/-- The multiple depends only on the residue. -/
theorem smul_mod {G : StarkPoint} (hG : HasCoords G (gX : Spec.F) (gY : Spec.F)) (k : Nat) : (k % Kind.scalar.prime) • G = k • G := by
  conv_rhs => rw [← Nat.mod_add_div k Kind.scalar.prime, add_nsmul, mul_nsmul, order_smul hG, nsmul_zero, add_zero]

end Verif.Crypto
