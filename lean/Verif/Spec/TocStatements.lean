import Verif.Spec.ApidbToc
/-!
# The `COPY` statements of the table of contents

Written by `scripts/gen_toc.py` from `src/osm/apidb_dump/write/toc/toc.dat`.
-/
namespace OsmIo.Spec

/-- Table, columns and data file of each statement, in order. -/
def tocStatements : List Statement := [
  ⟨"public.acls".toList, ["id".toList, "address".toList, "k".toList, "v".toList, "domain".toList, "mx".toList],
    "4210.dat"⟩,
  ⟨"public.active_storage_attachments".toList, ["id".toList, "name".toList, "record_type".toList, "record_id".toList, "blob_id".toList, "created_at".toList],
    "4212.dat"⟩,
  ⟨"public.active_storage_blobs".toList, ["id".toList, "key".toList, "filename".toList, "content_type".toList, "metadata".toList, "byte_size".toList, "checksum".toList, "created_at".toList, "service_name".toList],
    "4214.dat"⟩,
  ⟨"public.active_storage_variant_records".toList, ["id".toList, "blob_id".toList, "variation_digest".toList],
    "4216.dat"⟩,
  ⟨"public.ar_internal_metadata".toList, ["key".toList, "value".toList, "created_at".toList, "updated_at".toList],
    "4218.dat"⟩,
  ⟨"public.changeset_comments".toList, ["id".toList, "changeset_id".toList, "author_id".toList, "body".toList, "created_at".toList, "visible".toList],
    "4219.dat"⟩,
  ⟨"public.changeset_tags".toList, ["changeset_id".toList, "k".toList, "v".toList],
    "4221.dat"⟩,
  ⟨"public.changesets".toList, ["id".toList, "user_id".toList, "created_at".toList, "min_lat".toList, "max_lat".toList, "min_lon".toList, "max_lon".toList, "closed_at".toList, "num_changes".toList],
    "4222.dat"⟩,
  ⟨"public.changesets_subscribers".toList, ["subscriber_id".toList, "changeset_id".toList],
    "4224.dat"⟩,
  ⟨"public.client_applications".toList, ["id".toList, "name".toList, "url".toList, "support_url".toList, "callback_url".toList, "key".toList, "secret".toList, "user_id".toList, "created_at".toList, "updated_at".toList, "allow_read_prefs".toList, "allow_write_prefs".toList, "allow_write_diary".toList, "allow_write_api".toList, "allow_read_gpx".toList, "allow_write_gpx".toList, "allow_write_notes".toList],
    "4225.dat"⟩,
  ⟨"public.current_node_tags".toList, ["node_id".toList, "k".toList, "v".toList],
    "4227.dat"⟩,
  ⟨"public.current_nodes".toList, ["id".toList, "latitude".toList, "longitude".toList, "changeset_id".toList, "visible".toList, "\"timestamp\"".toList, "tile".toList, "version".toList],
    "4228.dat"⟩,
  ⟨"public.current_relation_members".toList, ["relation_id".toList, "member_type".toList, "member_id".toList, "member_role".toList, "sequence_id".toList],
    "4230.dat"⟩,
  ⟨"public.current_relation_tags".toList, ["relation_id".toList, "k".toList, "v".toList],
    "4231.dat"⟩,
  ⟨"public.current_relations".toList, ["id".toList, "changeset_id".toList, "\"timestamp\"".toList, "visible".toList, "version".toList],
    "4232.dat"⟩,
  ⟨"public.current_way_nodes".toList, ["way_id".toList, "node_id".toList, "sequence_id".toList],
    "4234.dat"⟩,
  ⟨"public.current_way_tags".toList, ["way_id".toList, "k".toList, "v".toList],
    "4235.dat"⟩,
  ⟨"public.current_ways".toList, ["id".toList, "changeset_id".toList, "\"timestamp\"".toList, "visible".toList, "version".toList],
    "4236.dat"⟩,
  ⟨"public.delayed_jobs".toList, ["id".toList, "priority".toList, "attempts".toList, "handler".toList, "last_error".toList, "run_at".toList, "locked_at".toList, "failed_at".toList, "locked_by".toList, "queue".toList, "created_at".toList, "updated_at".toList],
    "4238.dat"⟩,
  ⟨"public.diary_comments".toList, ["id".toList, "diary_entry_id".toList, "user_id".toList, "body".toList, "created_at".toList, "updated_at".toList, "visible".toList, "body_format".toList],
    "4240.dat"⟩,
  ⟨"public.diary_entries".toList, ["id".toList, "user_id".toList, "title".toList, "body".toList, "created_at".toList, "updated_at".toList, "latitude".toList, "longitude".toList, "language_code".toList, "visible".toList, "body_format".toList],
    "4242.dat"⟩,
  ⟨"public.diary_entry_subscriptions".toList, ["user_id".toList, "diary_entry_id".toList],
    "4244.dat"⟩,
  ⟨"public.friends".toList, ["id".toList, "user_id".toList, "friend_user_id".toList, "created_at".toList],
    "4245.dat"⟩,
  ⟨"public.gps_points".toList, ["altitude".toList, "trackid".toList, "latitude".toList, "longitude".toList, "gpx_id".toList, "\"timestamp\"".toList, "tile".toList],
    "4247.dat"⟩,
  ⟨"public.gpx_file_tags".toList, ["gpx_id".toList, "tag".toList, "id".toList],
    "4248.dat"⟩,
  ⟨"public.gpx_files".toList, ["id".toList, "user_id".toList, "visible".toList, "name".toList, "size".toList, "latitude".toList, "longitude".toList, "\"timestamp\"".toList, "description".toList, "inserted".toList, "visibility".toList],
    "4250.dat"⟩,
  ⟨"public.issue_comments".toList, ["id".toList, "issue_id".toList, "user_id".toList, "body".toList, "created_at".toList, "updated_at".toList],
    "4252.dat"⟩,
  ⟨"public.issues".toList, ["id".toList, "reportable_type".toList, "reportable_id".toList, "reported_user_id".toList, "status".toList, "assigned_role".toList, "resolved_at".toList, "resolved_by".toList, "updated_by".toList, "reports_count".toList, "created_at".toList, "updated_at".toList],
    "4254.dat"⟩,
  ⟨"public.languages".toList, ["code".toList, "english_name".toList, "native_name".toList],
    "4256.dat"⟩,
  ⟨"public.messages".toList, ["id".toList, "from_user_id".toList, "title".toList, "body".toList, "sent_on".toList, "message_read".toList, "to_user_id".toList, "to_user_visible".toList, "from_user_visible".toList, "body_format".toList],
    "4257.dat"⟩,
  ⟨"public.node_tags".toList, ["node_id".toList, "version".toList, "k".toList, "v".toList],
    "4259.dat"⟩,
  ⟨"public.nodes".toList, ["node_id".toList, "latitude".toList, "longitude".toList, "changeset_id".toList, "visible".toList, "\"timestamp\"".toList, "tile".toList, "version".toList, "redaction_id".toList],
    "4260.dat"⟩,
  ⟨"public.note_comments".toList, ["id".toList, "note_id".toList, "visible".toList, "created_at".toList, "author_ip".toList, "author_id".toList, "body".toList, "event".toList],
    "4261.dat"⟩,
  ⟨"public.notes".toList, ["id".toList, "latitude".toList, "longitude".toList, "tile".toList, "updated_at".toList, "created_at".toList, "status".toList, "closed_at".toList],
    "4263.dat"⟩,
  ⟨"public.oauth_access_grants".toList, ["id".toList, "resource_owner_id".toList, "application_id".toList, "token".toList, "expires_in".toList, "redirect_uri".toList, "created_at".toList, "revoked_at".toList, "scopes".toList, "code_challenge".toList, "code_challenge_method".toList],
    "4265.dat"⟩,
  ⟨"public.oauth_access_tokens".toList, ["id".toList, "resource_owner_id".toList, "application_id".toList, "token".toList, "refresh_token".toList, "expires_in".toList, "revoked_at".toList, "created_at".toList, "scopes".toList, "previous_refresh_token".toList],
    "4267.dat"⟩,
  ⟨"public.oauth_applications".toList, ["id".toList, "owner_type".toList, "owner_id".toList, "name".toList, "uid".toList, "secret".toList, "redirect_uri".toList, "scopes".toList, "confidential".toList, "created_at".toList, "updated_at".toList],
    "4269.dat"⟩,
  ⟨"public.oauth_nonces".toList, ["id".toList, "nonce".toList, "\"timestamp\"".toList, "created_at".toList, "updated_at".toList],
    "4271.dat"⟩,
  ⟨"public.oauth_tokens".toList, ["id".toList, "user_id".toList, "type".toList, "client_application_id".toList, "token".toList, "secret".toList, "authorized_at".toList, "invalidated_at".toList, "created_at".toList, "updated_at".toList, "allow_read_prefs".toList, "allow_write_prefs".toList, "allow_write_diary".toList, "allow_write_api".toList, "allow_read_gpx".toList, "allow_write_gpx".toList, "callback_url".toList, "verifier".toList, "scope".toList, "valid_to".toList, "allow_write_notes".toList],
    "4273.dat"⟩,
  ⟨"public.redactions".toList, ["id".toList, "title".toList, "description".toList, "created_at".toList, "updated_at".toList, "user_id".toList, "description_format".toList],
    "4275.dat"⟩,
  ⟨"public.relation_members".toList, ["relation_id".toList, "member_type".toList, "member_id".toList, "member_role".toList, "version".toList, "sequence_id".toList],
    "4277.dat"⟩,
  ⟨"public.relation_tags".toList, ["relation_id".toList, "k".toList, "v".toList, "version".toList],
    "4278.dat"⟩,
  ⟨"public.relations".toList, ["relation_id".toList, "changeset_id".toList, "\"timestamp\"".toList, "version".toList, "visible".toList, "redaction_id".toList],
    "4279.dat"⟩,
  ⟨"public.reports".toList, ["id".toList, "issue_id".toList, "user_id".toList, "details".toList, "category".toList, "created_at".toList, "updated_at".toList],
    "4280.dat"⟩,
  ⟨"public.schema_migrations".toList, ["version".toList],
    "4282.dat"⟩,
  ⟨"public.user_blocks".toList, ["id".toList, "user_id".toList, "creator_id".toList, "reason".toList, "ends_at".toList, "needs_view".toList, "revoker_id".toList, "created_at".toList, "updated_at".toList, "reason_format".toList],
    "4283.dat"⟩,
  ⟨"public.user_preferences".toList, ["user_id".toList, "k".toList, "v".toList],
    "4285.dat"⟩,
  ⟨"public.user_roles".toList, ["id".toList, "user_id".toList, "role".toList, "created_at".toList, "updated_at".toList, "granter_id".toList],
    "4286.dat"⟩,
  ⟨"public.user_tokens".toList, ["id".toList, "user_id".toList, "token".toList, "expiry".toList, "referer".toList],
    "4288.dat"⟩,
  ⟨"public.users".toList, ["email".toList, "id".toList, "pass_crypt".toList, "creation_time".toList, "display_name".toList, "data_public".toList, "description".toList, "home_lat".toList, "home_lon".toList, "home_zoom".toList, "pass_salt".toList, "email_valid".toList, "new_email".toList, "creation_ip".toList, "languages".toList, "status".toList, "terms_agreed".toList, "consider_pd".toList, "auth_uid".toList, "preferred_editor".toList, "terms_seen".toList, "description_format".toList, "changesets_count".toList, "traces_count".toList, "diary_entries_count".toList, "image_use_gravatar".toList, "auth_provider".toList, "home_tile".toList, "tou_agreed".toList],
    "4290.dat"⟩,
  ⟨"public.way_nodes".toList, ["way_id".toList, "node_id".toList, "version".toList, "sequence_id".toList],
    "4292.dat"⟩,
  ⟨"public.way_tags".toList, ["way_id".toList, "k".toList, "v".toList, "version".toList],
    "4293.dat"⟩,
  ⟨"public.ways".toList, ["way_id".toList, "changeset_id".toList, "\"timestamp\"".toList, "version".toList, "visible".toList, "redaction_id".toList],
    "4294.dat"⟩]

end OsmIo.Spec
